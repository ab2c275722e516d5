import Verif.Lemmas.GetDisps
import Verif.Model.Parser
import Verif.Props.TimeGrid

/-!
# C11, C12, C14–C17: sampling of displacements
-/

set_option linter.unusedSectionVars false

namespace Kinisi
open Spec
variable {K : Type} [Field K] [LinearOrder K] [IsStrictOrderedRing K] [FloorRing K]

/-- **C12.** Multi-origin sampling: the returned arrays are, in order, the complete sets of windows of the intervals that
have at least two non-overlapping windows over all selected atoms. -/
theorem C12_multi_origin_windows (fl : K → K) (giga : K) (itemsize : ℕ) (ts ss : PyNum K) (idx : List ℤ) (limit : K)
    (intervals : List ℕ) (dc : Arr3 K) (hidx : ∀ d ∈ idx, ValidIdx dc.n0 d) (hτ : ∀ τ ∈ intervals, 1 ≤ τ ∧ τ ≤ dc.n1)
    (hmem : fl ((windowBytes itemsize idx.length dc.n1 intervals : K) * giga) ≤ limit) :
    ∃ o, getDisps fl giga itemsize ts ss idx "multi-origin" limit (intervals.map fun τ : ℕ => (τ : ℤ)) dc = .ok o ∧
      List.Forall₂ (fun τ a => IsWindows dc (idx.map (atomOf dc.n0)) τ a)
        (intervals.filter fun τ => decide (2 ≤ disjointWindows idx.length dc.n1 τ)) o.disp3d := by
  rw [getDisps_multi fl giga itemsize ts ss idx limit intervals dc hidx hτ, if_neg (not_lt.2 hmem)]
  refine ⟨_, rfl, ?_⟩
  simp only [keptPairs, List.map_map]
  rw [List.forall₂_map_right_iff]
  apply List.forall₂_same.2
  intro τ h
  have := hτ τ (List.mem_filter.1 h).1
  exact windowArr_isWindows dc _ this.1 this.2

/-- **C12**, two or more atoms: no interval is left out. -/
theorem C12_nothing_skipped (natoms T : ℕ) (hn : 2 ≤ natoms) (τ : ℕ) (h1 : 1 ≤ τ) (h2 : τ ≤ T) :
    2 ≤ disjointWindows natoms T τ := by
  unfold disjointWindows
  have : 1 ≤ T / τ := (Nat.one_le_div_iff (by omega)).2 h2
  nlinarith

/-- An array used in the examples: atom `i` at step `j` is displaced by `(i+1) * (j+1)^2` along every axis. -/
def exDc : Arr3 ℚ := { n0 := 3, n1 := 5, get := fun i j _ => ((i : ℚ) + 1) * ((j : ℚ) + 1) ^ 2 }

example : ∃ o, getDisps id (1 / 10 ^ 9) 8 (.float (1 / 2)) (.int 10) [0, -1] "multi-origin" 8
      (([1, 3, 5] : List ℕ).map fun τ : ℕ => (τ : ℤ)) exDc = .ok o ∧
    List.Forall₂ (fun τ a => IsWindows exDc (([0, -1] : List ℤ).map (atomOf 3)) τ a) [1, 3, 5] o.disp3d := by
  obtain ⟨o, h, hw⟩ := C12_multi_origin_windows id (1 / 10 ^ 9) 8 (.float (1 / 2)) (.int 10) [0, -1] (8 : ℚ) [1, 3, 5] exDc
    (by unfold ValidIdx; decide) (by decide) (by decide +kernel)
  exact ⟨o, h, hw⟩

/-- **C15.** For ordered intervals only trailing intervals can be left out, so entry `i` of `disp_3d` and `n_o` belongs to
entry `i` of `delta_t`. -/
theorem C15_alignment (fl : K → K) (giga : K) (itemsize : ℕ) (ts ss : PyNum K) (idx : List ℤ) (limit : K)
    (intervals : List ℕ) (dc : Arr3 K) (hidx : ∀ d ∈ idx, ValidIdx dc.n0 d) (hτ : ∀ τ ∈ intervals, 1 ≤ τ ∧ τ ≤ dc.n1)
    (hord : intervals.Pairwise (· ≤ ·)) (o : DispsOut K)
    (ho : getDisps fl giga itemsize ts ss idx "multi-origin" limit (intervals.map fun τ : ℕ => (τ : ℤ)) dc = .ok o) :
    o.deltaT.length = intervals.length ∧ o.nO.length = o.disp3d.length ∧
      o.disp3d.length = (intervals.filter fun τ => decide (2 ≤ disjointWindows idx.length dc.n1 τ)).length ∧
      ∀ i, (hi : i < o.disp3d.length) → ∃ τ, intervals[i]? = some τ ∧
        o.deltaT[i]? = some (deltaTOf fl ts ss τ).val ∧
        IsWindows dc (idx.map (atomOf dc.n0)) τ o.disp3d[i] ∧
        ∃ last : ℕ, intervals.getLast? = some last ∧ o.nO[i]? = some (fl (((idx.length * last : ℕ) : K) / (τ : K))) := by
  rw [getDisps_multi fl giga itemsize ts ss idx limit intervals dc hidx hτ] at ho
  split_ifs at ho with hm
  obtain rfl := Except.ok.inj ho
  have hlen : ((keptPairs fl idx ((intervals.map fun τ : ℕ => (τ : ℤ)).getLastD 0) dc intervals).map Prod.fst).length
      = (intervals.filter fun τ => decide (2 ≤ disjointWindows idx.length dc.n1 τ)).length := by
    simp only [keptPairs, List.length_map]; rfl
  refine ⟨by simp, by simp, hlen, ?_⟩
  intro i hi
  simp only at hi
  rw [hlen] at hi
  have htake : (intervals.filter fun τ => decide (2 ≤ disjointWindows idx.length dc.n1 τ))
      = intervals.take (intervals.filter fun τ => decide (2 ≤ disjointWindows idx.length dc.n1 τ)).length := by
    -- the predicate is made total at 0, which does not occur
    have hcongr : (intervals.filter fun τ => decide (2 ≤ disjointWindows idx.length dc.n1 τ))
        = intervals.filter fun τ => decide (τ = 0 ∨ 2 ≤ disjointWindows idx.length dc.n1 τ) := by
      apply List.filter_congr
      intro τ h
      have := (hτ τ h).1
      simp only [decide_eq_decide]
      constructor
      · exact Or.inr
      · rintro (h | h)
        · omega
        · exact h
    rw [hcongr]
    apply filter_eq_take _ hord
    intro a b hab hb
    simp only [decide_eq_true_eq] at hb ⊢
    rcases Nat.eq_zero_or_pos a with h | h
    · exact Or.inl h
    · rcases hb with hb | hb
      · omega
      · exact Or.inr (hb.trans (disjointWindows_anti _ _ h hab))
  have hmem : ∃ τ, (intervals.filter fun τ => decide (2 ≤ disjointWindows idx.length dc.n1 τ))[i]? = some τ :=
    ⟨_, List.getElem?_eq_getElem hi⟩
  obtain ⟨τ, hτi⟩ := hmem
  have hτl : intervals[i]? = some τ := by
    rw [htake, List.getElem?_take] at hτi
    split_ifs at hτi
    exact hτi
  have hτmem : τ ∈ intervals := List.mem_of_getElem? hτl
  have hb := hτ τ hτmem
  have hkp : (keptPairs fl idx ((intervals.map fun τ : ℕ => (τ : ℤ)).getLastD 0) dc intervals)[i]? =
      some (windowArr dc (idx.map (atomOf dc.n0)) τ,
        fl ((((idx.length : ℤ) * (intervals.map fun τ : ℕ => (τ : ℤ)).getLastD 0 : ℤ) : K) / ((τ : ℤ) : K))) := by
    have hτi' : (intervals.filter fun τ => decide (1 < disjointWindows idx.length dc.n1 τ))[i]? = some τ := hτi
    simp only [keptPairs, List.getElem?_map, hτi', Option.map_some]
  refine ⟨τ, hτl, by simp [hτl], ?_, ?_⟩
  · have : ((keptPairs fl idx ((intervals.map fun τ : ℕ => (τ : ℤ)).getLastD 0) dc intervals).map Prod.fst)[i]? =
        some (windowArr dc (idx.map (atomOf dc.n0)) τ) := by rw [List.getElem?_map, hkp]; rfl
    have h2 := (List.getElem?_eq_some_iff.1 this).2
    simp only
    rw [h2]
    exact windowArr_isWindows dc _ hb.1 hb.2
  · obtain ⟨last, hlast⟩ : ∃ last, intervals.getLast? = some last := by
      cases h : intervals.getLast? with
      | none => rw [List.getLast?_eq_none_iff] at h; rw [h] at hτmem; simp at hτmem
      | some x => exact ⟨x, rfl⟩
    refine ⟨last, hlast, ?_⟩
    have hl2 : (intervals.map fun τ : ℕ => (τ : ℤ)).getLastD 0 = (last : ℤ) := by
      rw [List.getLastD_eq_getLast?, List.getLast?_map, hlast]; rfl
    rw [List.getElem?_map, hkp, hl2]
    simp

/-- **C16.** Exact arithmetic; `τ` and `last` are the interval and the last interval. -/
theorem C16_independent_observations (giga : K) (itemsize : ℕ) (ts ss : PyNum K) (idx : List ℤ) (limit : K)
    (intervals : List ℕ) (dc : Arr3 K) (hidx : ∀ d ∈ idx, ValidIdx dc.n0 d) (hτ : ∀ τ ∈ intervals, 1 ≤ τ ∧ τ ≤ dc.n1)
    (hord : intervals.Pairwise (· ≤ ·)) (o : DispsOut K)
    (ho : getDisps id giga itemsize ts ss idx "multi-origin" limit (intervals.map fun τ : ℕ => (τ : ℤ)) dc = .ok o)
    (last : ℕ) (hlast : intervals.getLast? = some last) :
    ∀ i, (hi : i < o.nO.length) → ∃ τ dt, intervals[i]? = some τ ∧ o.deltaT[i]? = some dt ∧
      o.nO[i] = (idx.length : K) * ((last : K) / τ) ∧ (idx.length : K) ≤ o.nO[i] ∧ (τ = last → o.nO[i] = idx.length) ∧
      o.nO[i] * dt = (idx.length : K) * last * (ts.val * ss.val) ∧
      ∀ j, (hj : j < o.nO.length) → i ≤ j → o.nO[j] ≤ o.nO[i] := by
  obtain ⟨-, hlen, -, h⟩ := C15_alignment id giga itemsize ts ss idx limit intervals dc hidx hτ hord o ho
  have key : ∀ i, (hi : i < o.nO.length) → ∃ τ, intervals[i]? = some τ ∧ o.deltaT[i]? = some (deltaTOf id ts ss τ).val ∧
      o.nO[i] = (idx.length : K) * ((last : K) / τ) := by
    intro i hi
    obtain ⟨τ, h1, h2, -, l, hl, h4⟩ := h i (by omega)
    rw [hlast] at hl
    obtain rfl := Option.some.inj hl
    refine ⟨τ, h1, h2, ?_⟩
    have := (List.getElem?_eq_some_iff.1 h4).2
    rw [this]
    simp only [id]
    push_cast
    rw [mul_div_assoc]
  have hle : ∀ τ ∈ intervals, τ ≤ last := by
    intro τ hm
    obtain ⟨ys, hys⟩ := List.getLast?_eq_some_iff.1 hlast
    rw [hys, List.pairwise_append] at hord
    rw [hys, List.mem_append, List.mem_singleton] at hm
    rcases hm with hm | rfl
    · exact hord.2.2 τ hm last (by simp)
    · exact le_rfl
  intro i hi
  obtain ⟨τ, h1, h2, h3⟩ := key i hi
  have hm : τ ∈ intervals := List.mem_of_getElem? h1
  have hτ0 : (0 : K) < τ := by exact_mod_cast (hτ τ hm).1
  have hτl : (τ : K) ≤ last := by exact_mod_cast hle τ hm
  have hn : (0 : K) ≤ idx.length := by positivity
  refine ⟨τ, _, h1, h2, h3, ?_, ?_, ?_, ?_⟩
  · rw [h3]
    have : (1 : K) ≤ (last : K) / τ := by rwa [le_div_iff₀ hτ0, one_mul]
    nlinarith
  · rintro rfl
    rw [h3, div_self hτ0.ne', mul_one]
  · rw [h3, deltaTOf, PyNum.val_mul_id, PyNum.val_mul_id]
    simp only [PyNum.val]
    push_cast
    field_simp
  · intro j hj hij
    obtain ⟨σ, s1, -, s3⟩ := key j hj
    have hs : σ ∈ intervals := List.mem_of_getElem? s1
    have hτσ : τ ≤ σ := by
      rcases hij.eq_or_lt with rfl | hlt
      · rw [h1] at s1; exact (Option.some.inj s1).le
      · obtain ⟨a1, a2⟩ := List.getElem?_eq_some_iff.1 h1
        obtain ⟨b1, b2⟩ := List.getElem?_eq_some_iff.1 s1
        have := List.pairwise_iff_getElem.1 hord i j a1 b1 hlt
        rwa [a2, b2] at this
    rw [h3, s3]
    have : (τ : K) ≤ σ := by exact_mod_cast hτσ
    gcongr

/-- **C17.** Refusal happens exactly above the limit, and what is built never exceeds it. -/
theorem C17_memory_limit (fl : K → K) (giga : K) (itemsize : ℕ) (ts ss : PyNum K) (idx : List ℤ) (limit : K)
    (intervals : List ℕ) (dc : Arr3 K) (hidx : ∀ d ∈ idx, ValidIdx dc.n0 d) (hτ : ∀ τ ∈ intervals, 1 ≤ τ ∧ τ ≤ dc.n1) :
    (getDisps fl giga itemsize ts ss idx "multi-origin" limit (intervals.map fun τ : ℕ => (τ : ℤ)) dc = .error .memoryError ↔
      limit < fl ((windowBytes itemsize idx.length dc.n1 intervals : K) * giga)) ∧
    ∀ o, getDisps fl giga itemsize ts ss idx "multi-origin" limit (intervals.map fun τ : ℕ => (τ : ℤ)) dc = .ok o →
      (o.disp3d.map fun a => a.n0 * a.n1 * 3 * itemsize).sum ≤ windowBytes itemsize idx.length dc.n1 intervals := by
  rw [getDisps_multi fl giga itemsize ts ss idx limit intervals dc hidx hτ]
  constructor
  · split_ifs with h <;> simp [h]
  · intro o ho
    split_ifs at ho with h
    obtain rfl := Except.ok.inj ho
    simp only [keptPairs, List.map_map]
    unfold windowBytes
    have e : (List.map ((fun a => a.n0 * a.n1 * 3 * itemsize) ∘ Prod.fst ∘ fun τ : ℕ =>
          (windowArr dc (idx.map (atomOf dc.n0)) τ,
            fl ((((idx.length : ℤ) * (intervals.map fun τ : ℕ => (τ : ℤ)).getLastD 0 : ℤ) : K) / ((τ : ℤ) : K))))
          (intervals.filter fun τ => decide (1 < disjointWindows idx.length dc.n1 τ)))
        = (intervals.filter fun τ => decide (1 < disjointWindows idx.length dc.n1 τ)).map
            fun τ => idx.length * (dc.n1 + 1 - τ) * 3 * itemsize := by
      apply List.map_congr_left
      intro τ hm
      have := (hτ τ (List.mem_filter.1 hm).1).2
      simp only [Function.comp, windowArr, List.length_map]
      rw [show 1 + (dc.n1 - τ) = dc.n1 + 1 - τ by omega]
    rw [e]
    exact (List.filter_sublist.map _).sum_le_sum (by simp)

example : getDisps id (1 / 10 ^ 9) 8 (.float (1 / 2)) (.int 10) [0, -1] "multi-origin" (1 / 10 ^ 9)
      (([1, 3, 5] : List ℕ).map fun τ : ℕ => (τ : ℤ)) exDc = .error .memoryError := by
  refine (C17_memory_limit id _ 8 _ _ _ _ [1, 3, 5] exDc (by unfold ValidIdx; decide) (by decide)).1.2 ?_
  decide +kernel

/-- **C14, what holds.** With single-origin sampling the `i`-th array holds one observation per atom, the displacement
after `i+1` steps: the position in the list decides, not the interval. -/
theorem C14_single_origin_uses_list_position_partial (fl : K → K) (giga : K) (itemsize : ℕ) (ts ss : PyNum K) (idx : List ℤ)
    (limit : K) (iv : List ℤ) (dc : Arr3 K) (hidx : ∀ d ∈ idx, ValidIdx dc.n0 d) (h2 : 2 ≤ idx.length) (hτ : ∀ τ ∈ iv, τ ≠ 0)
    (hlen : iv.length ≤ dc.n1)
    (hmem : ¬ limit < fl (((iv.map fun τ => intervalBytes itemsize idx.length dc.n1 τ).sum : ℕ) * giga)) :
    ∃ o, getDisps fl giga itemsize ts ss idx "single-origin" limit iv dc = .ok o ∧ o.disp3d.length = iv.length ∧
      ∀ i, (hi : i < o.disp3d.length) → o.disp3d[i].n0 = idx.length ∧ o.disp3d[i].n1 = 1 ∧
        ∀ r, (hr : r < idx.length) → o.disp3d[i].get r 0 = after dc (atomOf dc.n0 idx[r]) (i + 1) := by
  rw [getDisps_single fl giga itemsize ts ss idx limit iv dc hidx h2 hτ hlen hmem]
  refine ⟨_, rfl, by simp, ?_⟩
  intro i hi
  simp only [List.length_map, List.length_zipIdx] at hi
  simp only [List.getElem_map, List.getElem_zipIdx, zero_add]
  refine ⟨by simp [singleOrigin], ?_, ?_⟩
  · have e : ((i : ℤ) + 1) = ((i + 1 : ℕ) : ℤ) := by push_cast; ring
    simp only [singleOrigin, e, sliceBound_nat]
    omega
  · intro r hr
    simp [singleOrigin, after, List.getD, hr]

/-- **C14, positive case.** For the intervals `1, …, m` the claim holds. -/
theorem C14_consecutive_intervals_partial (fl : K → K) (giga : K) (itemsize : ℕ) (ts ss : PyNum K) (idx : List ℤ)
    (limit : K) (m : ℕ) (dc : Arr3 K) (hidx : ∀ d ∈ idx, ValidIdx dc.n0 d) (h2 : 2 ≤ idx.length) (hm : m ≤ dc.n1)
    (hmem : fl ((windowBytes itemsize idx.length dc.n1 ((List.range m).map (· + 1)) : K) * giga) ≤ limit) :
    ∃ o, getDisps fl giga itemsize ts ss idx "single-origin" limit ((List.range m).map fun i : ℕ => ((i + 1 : ℕ) : ℤ)) dc = .ok o ∧
      o.disp3d.length = m ∧
      ∀ i, (hi : i < o.disp3d.length) → ∀ r, (hr : r < idx.length) →
        o.disp3d[i].get r 0 = after dc (atomOf dc.n0 idx[r]) (i + 1) := by
  obtain ⟨o, h, hl, ho⟩ := C14_single_origin_uses_list_position_partial fl giga itemsize ts ss idx limit
    ((List.range m).map fun i : ℕ => ((i + 1 : ℕ) : ℤ)) dc hidx h2 (by simp; intros; omega) (by simpa using hm) (by
      rw [not_lt]
      convert hmem using 4
      unfold windowBytes
      rw [List.map_map, List.map_map]
      congr 1
      apply List.map_congr_left
      intro i hi
      rw [List.mem_range] at hi
      simp only [Function.comp, intervalBytes, sliceBound_nat]
      obtain ⟨q, hq⟩ : ∃ q, dc.n1 = i + 1 + q := ⟨dc.n1 - (i + 1), by omega⟩
      rw [min_eq_left (by omega), hq, show i + 1 + q - (i + 1) = q by omega, show i + 1 + q + 1 - (i + 1) = q + 1 by omega]
      ring)
  exact ⟨o, h, by simpa using hl, fun i hi => (ho i hi).2.2⟩

/-- **C14 is violated**: for the intervals 2 and 4 the observations are the displacements after 1 and 2 steps. -/
theorem C14_violated : ∃ o, getDisps id (1 / 10 ^ 9) 8 (.float 1) (.int 1) [0, 1] "single-origin" 8 [2, 4] exDc = .ok o ∧
    o.disp3d.length = 2 ∧ ∀ i, (hi : i < o.disp3d.length) →
      o.disp3d[i].get 0 0 = after exDc 0 (i + 1) ∧ after exDc 0 (i + 1) 0 ≠ after exDc 0 (2 * (i + 1)) 0 := by
  obtain ⟨o, h, hl, ho⟩ := C14_single_origin_uses_list_position_partial id (1 / 10 ^ 9) 8 (.float (1 : ℚ)) (.int 1) [0, 1] 8 [2, 4]
    exDc (by unfold ValidIdx; decide) (by decide) (by decide) (by decide) (by decide +kernel)
  refine ⟨o, h, hl, fun i hi => ⟨(ho i hi).2.2 0 (by decide), ?_⟩⟩
  have : i < 2 := by rw [hl] at hi; exact hi
  interval_cases i <;> decide +kernel

/-- **C11, accepted parameters.** A parser that is constructed has all its intervals between 1 and the number of steps.
(`geo` is only assumed to stay non-negative, which `geoReal` does: `geoReal_nonneg`.) -/
theorem C11_accepted_intervals_in_range (E : Num K) (P : Params K) (hfl : E.fl = id)
    (hgeo : ∀ a b n i, 0 ≤ a → 0 ≤ b → 0 ≤ E.geo a b n i) (hpos : 0 < P.stepSkip.val * P.timeStep.val)
    (hmin : ∀ x, P.minDt = some x → 0 ≤ x) (hmax : ∀ x, P.maxDt = some x → 0 ≤ x) (hs : P.sampling = "multi-origin")
    (w : Bool) (disp : Arr3 K) (sel : Selection) (r : Parsed K) (hr : parserInit E P w disp sel = .ok r) :
    ∀ τ ∈ r.intervals, 1 ≤ τ ∧ τ ≤ r.dc.n1 := by
  unfold parserInit at hr
  rw [hfl, hs] at hr
  cases hdc : correctDriftSeq sel.drift disp with
  | error e => rw [hdc] at hr; simp [bind, Except.bind] at hr
  | ok dc =>
  rw [hdc] at hr
  simp only [bind, Except.bind] at hr
  cases hti : initTimeIntervals id E.geo dc.n1 P.timeStep P.stepSkip P.minDt P.maxDt P.nSteps P.spacing with
  | error e => rw [hti] at hr; simp at hr
  | ok ti =>
  rw [hti] at hr
  simp only at hr
  cases hgd : getDisps id (id (1 / 10 ^ 9)) P.itemsize P.timeStep P.stepSkip sel.indices "multi-origin" P.memoryLimit ti dc with
  | error e => rw [hgd] at hr; simp at hr
  | ok o =>
  rw [hgd] at hr
  simp only [Except.ok.injEq] at hr
  subst hr
  simp only
  have hnn := initTimeIntervals_nonneg E.geo hgeo dc.n1 P.timeStep P.stepSkip hpos P.minDt P.maxDt hmin hmax P.nSteps P.spacing ti hti
  intro τ hτ
  have h1 := getDisps_ok_interval hgd τ hτ
  have h2 := hnn τ hτ
  omega

theorem geoReal_nonneg (a b : ℤ) (n i : ℕ) (ha : 0 ≤ a) (hb : 0 ≤ b) : 0 ≤ geoReal a b n i := by
  unfold geoReal
  have ha' : (0 : ℝ) ≤ a := by exact_mod_cast ha
  have hb' : (0 : ℝ) ≤ b := by exact_mod_cast hb
  exact mul_nonneg ha' (Real.rpow_nonneg (div_nonneg hb' ha') _)

/-- **C11, too large minimum.** -/
theorem C11_min_dt_too_large (E : Num K) (P : Params K) (hfl : E.fl = id) (hpos : 0 < P.stepSkip.val * P.timeStep.val)
    (x : K) (hx : P.minDt = some x) (hx0 : 0 ≤ x) (w : Bool) (disp dc : Arr3 K) (sel : Selection)
    (hdc : correctDriftSeq sel.drift disp = .ok dc) (hbig : (dc.n1 : ℤ) ≤ ⌊x / (P.stepSkip.val * P.timeStep.val)⌋) :
    parserInit E P w disp sel = .error .valueError := by
  unfold parserInit
  rw [hfl, hdc]
  simp only [bind, Except.bind]
  unfold initTimeIntervals
  simp only [hx, minDtOf]
  rw [stepsOf_id hpos hx0]
  simp only [bind, Except.bind]
  rw [if_pos hbig]

/-- **C11, too large maximum.** Two or more intervals reaching beyond the last step: IndexError (or MemoryError, which is
checked first), never a result.  `dc` are the drift-corrected displacements.  (`geo` is only assumed to stay between its end points, which `geoReal`
does: `geoReal_between`.) -/
theorem C11_max_dt_too_large (E : Num K) (P : Params K) (disp dc : Arr3 K) (hfl : E.fl = id) (hpos : 0 < P.stepSkip.val * P.timeStep.val)
    (hs : P.sampling = "multi-origin")
    (hsp : P.spacing = "linear" ∨ P.spacing = "logarithmic" ∧
      ∀ (a b : ℤ) (n i : ℕ), 1 ≤ a → a ≤ b → i < n → (a : K) ≤ E.geo a b n i ∧ E.geo a b n i ≤ b) (hn : 2 ≤ P.nSteps)
    (hmin : ∀ x, P.minDt = some x → 0 ≤ x ∧ x < (dc.n1 : K) * (P.stepSkip.val * P.timeStep.val))
    (y : K) (hy : P.maxDt = some y) (hbig : (dc.n1 : ℤ) < ⌊y / (P.stepSkip.val * P.timeStep.val)⌋)
    (w : Bool) (sel : Selection) (hdc : correctDriftSeq sel.drift disp = .ok dc) (hT : 2 ≤ dc.n1)
    (hidx : ∀ d ∈ sel.indices, ValidIdx dc.n0 d) :
    parserInit E P w disp sel = .error .indexError ∨ parserInit E P w disp sel = .error .memoryError := by
  have hy0 : 0 ≤ y := by
    by_contra hc
    push Not at hc
    have : y / (P.stepSkip.val * P.timeStep.val) ≤ 0 := div_nonpos_of_nonpos_of_nonneg hc.le hpos.le
    have := Int.floor_nonpos this
    omega
  unfold parserInit
  rw [hfl, hs, hy, hdc]
  simp only [bind, Except.bind]
  set d := P.stepSkip.val * P.timeStep.val with hd
  set x := minDtOf id P.timeStep P.stepSkip P.minDt with hx
  have hx' : 0 ≤ x ∧ x < (dc.n1 : K) * d := by
    rw [hx]
    cases h : P.minDt with
    | none =>
      simp only [minDtOf, PyNum.val_mul_id]
      rw [← hd]
      have h2 : (2 : K) ≤ dc.n1 := by exact_mod_cast hT
      exact ⟨hpos.le, by nlinarith⟩
    | some z => exact hmin z h
  have hm0 : 0 ≤ ⌊x / d⌋ := Int.floor_nonneg.2 (div_nonneg hx'.1 hpos.le)
  have hmT : ⌊x / d⌋ < dc.n1 := by
    rw [Int.floor_lt]; push_cast; rw [div_lt_iff₀ hpos]; exact hx'.2
  set n : ℤ := if P.nSteps > (dc.n1 : ℤ) - ⌊x / d⌋ + 1 then (dc.n1 : ℤ) - ⌊x / d⌋ + 1 else P.nSteps with hnn
  have hn2 : 2 ≤ n := by rw [hnn]; split_ifs <;> omega
  have hti : initTimeIntervals id E.geo dc.n1 P.timeStep P.stepSkip P.minDt (some y) P.nSteps P.spacing
      = getTimeIntervals id E.geo P.timeStep P.stepSkip x y n P.spacing := by
    unfold initTimeIntervals
    simp only [maxDtOf]
    rw [← hx, stepsOf_id hpos hx'.1, ← hd]
    simp only [bind, Except.bind]
    rw [if_neg (by omega)]
  obtain ⟨l, hl, hr, hmem⟩ : ∃ l, getTimeIntervals id E.geo P.timeStep P.stepSkip x y n P.spacing = .ok l ∧ (∀ τ ∈ l, 1 ≤ τ) ∧ ⌊y / d⌋ ∈ l := by
    rcases hsp with hsp | ⟨hsp, hgeo⟩
    · obtain ⟨l, hl, hlen, h0, hlast, -, hr, -⟩ := C07_linear_intervals E.geo P.timeStep P.stepSkip d hd hpos x y hx'.1 hy0
        (max 1 ⌊x / d⌋) ⌊y / d⌋ rfl rfl (by omega) n.toNat (by omega)
      rw [Int.toNat_of_nonneg (by omega)] at hl
      exact ⟨l, by rw [hsp]; exact hl, fun τ h => by have := (hr τ h).1; omega, List.mem_of_getElem? hlast⟩
    · have ha : (1 : ℤ) ≤ if ⌊x / d⌋ = 0 then 1 else ⌊x / d⌋ := by split_ifs <;> omega
      have hab : (if ⌊x / d⌋ = 0 then 1 else ⌊x / d⌋) ≤ ⌊y / d⌋ := by split_ifs <;> omega
      obtain ⟨l, hl, -, -, hr, -, hb⟩ := C10_logarithmic_intervals id E.geo P.timeStep P.stepSkip x y ⌊x / d⌋ ⌊y / d⌋ _
        (stepsOf_id hpos hx'.1) (stepsOf_id hpos hy0) rfl ha hab n.toNat (by omega) (fun i hi => hgeo _ _ _ _ ha hab hi)
      rw [Int.toNat_of_nonneg (by omega)] at hl
      exact ⟨l, by rw [hsp]; exact hl, fun τ h => by have := (hr τ h).1; omega, hb (by omega)⟩
  rw [hti, hl]
  simp only
  rcases getDisps_beyond (giga := id (1 / 10 ^ 9)) (itemsize := P.itemsize) (ts := P.timeStep) (ss := P.stepSkip)
    (limit := P.memoryLimit) (dc := dc) hidx (iv := l) hr ⌊y / d⌋ hmem hbig with h | h
  · left; rw [h]
  · right; rw [h]

/-- Frames three units apart, four steps: accepted, too large minimum, too large maximum. -/
example : (∃ r, parserInit (K := ℚ) ⟨id, fun _ _ _ _ => 0, ⟨id, id, fun _ _ => 0, 3⟩⟩
      { timeStep := .float 3, stepSkip := .int 1, memoryLimit := 8 } false exDc ⟨[0, 1], ⟨false, [2]⟩⟩ = .ok r ∧
      ∀ τ ∈ r.intervals, 1 ≤ τ ∧ τ ≤ r.dc.n1) ∧
    parserInit (K := ℚ) ⟨id, fun _ _ _ _ => 0, ⟨id, id, fun _ _ => 0, 3⟩⟩
      { timeStep := .float 3, stepSkip := .int 1, memoryLimit := 8, minDt := some 15 } false exDc ⟨[0, 1], ⟨false, []⟩⟩
      = .error .valueError := by
  constructor
  · obtain ⟨r, hr⟩ : ∃ r, parserInit (K := ℚ) ⟨id, fun _ _ _ _ => 0, ⟨id, id, fun _ _ => 0, 3⟩⟩
      { timeStep := .float 3, stepSkip := .int 1, memoryLimit := 8 } false exDc ⟨[0, 1], ⟨false, [2]⟩⟩ = .ok r := by
      have h : (parserInit (K := ℚ) ⟨id, fun _ _ _ _ => 0, ⟨id, id, fun _ _ => 0, 3⟩⟩
        { timeStep := .float 3, stepSkip := .int 1, memoryLimit := 8 } false exDc ⟨[0, 1], ⟨false, [2]⟩⟩).toOption.isSome = true := by
        decide +kernel
      revert h
      cases parserInit (K := ℚ) ⟨id, fun _ _ _ _ => 0, ⟨id, id, fun _ _ => 0, 3⟩⟩
        { timeStep := .float 3, stepSkip := .int 1, memoryLimit := 8 } false exDc ⟨[0, 1], ⟨false, [2]⟩⟩ with
      | ok r => intro _; exact ⟨r, rfl⟩
      | error e => intro h; simp [Except.toOption] at h
    exact ⟨r, hr, C11_accepted_intervals_in_range _ _ rfl (fun _ _ _ _ _ _ => le_rfl) (by norm_num [PyNum.val]) (by simp) (by simp) rfl
      _ _ _ r hr⟩
  · exact C11_min_dt_too_large _ _ rfl (by norm_num [PyNum.val]) 15 rfl (by norm_num) _ _ exDc _ rfl (by decide +kernel)

/-- `C15_alignment` and `C16_independent_observations` for the array of the first example: three intervals, two atoms. -/
example : ∃ o : DispsOut ℚ, getDisps id (1 / 10 ^ 9) 8 (.float (1 / 2)) (.int 10) [0, -1] "multi-origin" 8
      (([1, 3, 5] : List ℕ).map fun τ : ℕ => (τ : ℤ)) exDc = .ok o ∧
    o.deltaT.length = 3 ∧ o.disp3d.length = 3 ∧ ∀ i, (hi : i < o.nO.length) → ((2 : ℕ) : ℚ) ≤ o.nO[i] := by
  obtain ⟨o, h, -⟩ := C12_multi_origin_windows id (1 / 10 ^ 9) 8 (.float (1 / 2)) (.int 10) [0, -1] (8 : ℚ) [1, 3, 5] exDc
    (by unfold ValidIdx; decide) (by decide) (by decide +kernel)
  have h15 := C15_alignment id (1 / 10 ^ 9) 8 (.float (1 / 2)) (.int 10) [0, -1] (8 : ℚ) [1, 3, 5] exDc
    (by unfold ValidIdx; decide) (by decide) (by decide) o h
  have h16 := C16_independent_observations (1 / 10 ^ 9) 8 (.float (1 / 2)) (.int 10) [0, -1] (8 : ℚ) [1, 3, 5] exDc
    (by unfold ValidIdx; decide) (by decide) (by decide) o h 5 rfl
  refine ⟨o, h, h15.1, h15.2.2.1.trans (by decide), fun i hi => ?_⟩
  obtain ⟨τ, dt, -, -, -, h, -⟩ := h16 i hi
  exact h

/-- `C14_consecutive_intervals_partial`: the intervals 1, 2, 3 from a single origin. -/
example : ∃ o : DispsOut ℚ, getDisps id (1 / 10 ^ 9) 8 (.float (1 / 2)) (.int 10) [0, -1] "single-origin" 8
      ((List.range 3).map fun i : ℕ => ((i + 1 : ℕ) : ℤ)) exDc = .ok o ∧ o.disp3d.length = 3 := by
  obtain ⟨o, h, h', -⟩ := C14_consecutive_intervals_partial id (1 / 10 ^ 9) 8 (.float (1 / 2)) (.int 10) [0, -1] (8 : ℚ) 3 exDc
    (by unfold ValidIdx; decide) (by decide) (by decide) (by decide +kernel)
  exact ⟨o, h, h'⟩

/-- `C11_max_dt_too_large`: six intervals asked for, five present; the third atom is the framework. -/
example : parserInit (K := ℚ) ⟨id, fun _ _ _ _ => 0, ⟨id, id, fun _ _ => 0, 3⟩⟩
      { timeStep := .float 3, stepSkip := .int 1, memoryLimit := 8, maxDt := some 18 } false exDc ⟨[0, 1], ⟨false, [2]⟩⟩ = .error .indexError ∨
    parserInit (K := ℚ) ⟨id, fun _ _ _ _ => 0, ⟨id, id, fun _ _ => 0, 3⟩⟩
      { timeStep := .float 3, stepSkip := .int 1, memoryLimit := 8, maxDt := some 18 } false exDc ⟨[0, 1], ⟨false, [2]⟩⟩ = .error .memoryError := by
  obtain ⟨dc, h, h0, h1⟩ : ∃ dc, correctDriftSeq ⟨false, [2]⟩ exDc = .ok dc ∧ dc.n0 = 3 ∧ dc.n1 = 5 := by
    have h : (correctDriftSeq ⟨false, [2]⟩ exDc).toOption.map (fun a => (a.n0, a.n1)) = some (3, 5) := by decide +kernel
    cases hc : correctDriftSeq ⟨false, [2]⟩ exDc with
    | error e => rw [hc] at h; cases h
    | ok dc =>
      rw [hc] at h
      obtain ⟨a, b⟩ := Prod.mk.inj (Option.some.inj h)
      exact ⟨dc, rfl, a, b⟩
  exact C11_max_dt_too_large _ _ exDc dc rfl (by norm_num [PyNum.val]) rfl (.inl rfl) (by norm_num) (fun x h => by cases h) 18 rfl
    (by rw [h1]; decide +kernel) _ _ h (by omega) (by rw [h0]; unfold ValidIdx; decide)

end Kinisi
