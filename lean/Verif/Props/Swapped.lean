import Verif.Props.GetDisps
import Verif.Props.Parser

/-!
# C109: a `max_dt` below `min_dt`

`Parser.__init__` (kinisi/parser.py:80-90) compares `min_dt` with the length of the simulation only.
-/

set_option linter.unusedSectionVars false
set_option linter.unusedVariables false

namespace Kinisi
open Spec

variable {K : Type} [Field K] [LinearOrder K] [IsStrictOrderedRing K] [FloorRing K]

theorem ok_of_toOption {α : Type} {x : PyM α} {a : α} (h : x.toOption = some a) : x = .ok a := by
  cases x with
  | ok r => exact congrArg Except.ok (Option.some.inj h)
  | error e => cases h

/-- With the first entry `a` above the last entry `b` the linear spacing descends and stays between them. -/
theorem linEntry_descends {a b : ℤ} (hab : b ≤ a) {n : ℕ} (hn : 2 ≤ n) {i j : ℕ} (hij : i ≤ j) (hj : j < n) :
    b ≤ linEntry (id : K → K) a b n j ∧ linEntry (id : K → K) a b n j ≤ linEntry (id : K → K) a b n i ∧
      linEntry (id : K → K) a b n i ≤ a := by
  rw [linEntry_exact a b hn hj, linEntry_exact a b hn (by omega : i < n)]
  have hn1 : (0 : K) < (n : K) - 1 := by
    have : (2 : K) ≤ n := by exact_mod_cast hn
    linarith
  have hba : (b : K) ≤ a := by exact_mod_cast hab
  have hj' : (j : K) ≤ (n : K) - 1 := by
    have : (j : K) + 1 ≤ n := by exact_mod_cast hj
    linarith
  have hi' : (i : K) ≤ j := by exact_mod_cast hij
  have hi0 : (0 : K) ≤ i := Nat.cast_nonneg i
  push_cast
  refine ⟨?_, Int.floor_mono ?_, ?_⟩
  · rw [Int.le_floor, ← sub_le_iff_le_add', le_div_iff₀ hn1]
    nlinarith
  · gcongr (_ : K) + ?_ / _
    nlinarith
  · rw [← Int.cast_le (R := K)]
    refine (Int.floor_le _).trans ?_
    have : (i : K) * ((b : K) - a) / ((n : K) - 1) ≤ 0 := div_nonpos_of_nonpos_of_nonneg (by nlinarith) hn1.le
    linarith

/-- **C109, what happens instead.** Two or more selected atoms, linear spacing: a `max_dt` of `b` whole frames below a
`min_dt` of `a` whole frames passes every check.  The intervals descend from `a` to `b`, and the number of independent
observations at the first of them is less than one per atom. -/
theorem C109_swapped (E : Num K) (P : Params K) (disp dc : Arr3 K) (hfl : E.fl = id) (hpos : 0 < P.stepSkip.val * P.timeStep.val)
    (hs : P.sampling = "multi-origin") (hsp : P.spacing = "linear") (hn : 2 ≤ P.nSteps)
    (x y : K) (hx : P.minDt = some x) (hy : P.maxDt = some y) (hx0 : 0 ≤ x) (hy0 : 0 ≤ y) (a b : ℕ)
    (ha : ⌊x / (P.stepSkip.val * P.timeStep.val)⌋ = a) (hb : ⌊y / (P.stepSkip.val * P.timeStep.val)⌋ = b)
    (h1 : 1 ≤ b) (hba : b < a) (haT : a < dc.n1)
    (w : Bool) (sel : Selection) (hdc : correctDriftSeq sel.drift disp = .ok dc)
    (hidx : ∀ d ∈ sel.indices, ValidIdx dc.n0 d) (hatoms : 2 ≤ sel.indices.length) :
    parserInit E P w disp sel = .error .memoryError ∨
    ∃ r, parserInit E P w disp sel = .ok r ∧ r.intervals.Pairwise (· ≥ ·) ∧ r.intervals[0]? = some (a : ℤ) ∧
      r.intervals.getLast? = some (b : ℤ) ∧ r.disp3d.length = r.intervals.length ∧
      r.nO[0]? = some ((sel.indices.length : K) * b / a) ∧
      (sel.indices.length : K) * b / a < sel.indices.length := by
  unfold parserInit
  rw [hfl, hs, hy, hx, hdc]
  simp only [bind, Except.bind]
  set d := P.stepSkip.val * P.timeStep.val with hd
  set n : ℤ := if P.nSteps > (dc.n1 : ℤ) - (a : ℤ) + 1 then (dc.n1 : ℤ) - (a : ℤ) + 1 else P.nSteps with hnn
  have hn2 : 2 ≤ n := by rw [hnn]; split_ifs <;> omega
  obtain ⟨m, hm⟩ : ∃ m : ℕ, n = m := ⟨n.toNat, by omega⟩
  have hm2 : 2 ≤ m := by omega
  have hti : initTimeIntervals id E.geo dc.n1 P.timeStep P.stepSkip (some x) (some y) P.nSteps P.spacing
      = .ok ((List.range m).map (linEntry (id : K → K) a b m)) := by
    unfold initTimeIntervals
    simp only [maxDtOf, minDtOf]
    rw [stepsOf_id hpos hx0, ← hd, ha]
    simp only [bind, Except.bind]
    rw [if_neg (by omega), ← hnn, hm, hsp, getTimeIntervals_linear (stepsOf_id hpos hx0) (stepsOf_id hpos hy0), ← hd, ha, hb,
      if_neg (by omega), linspaceInt_nat]
  rw [hti]
  simp only
  have hE : ∀ i j : ℕ, i ≤ j → j < m → (b : ℤ) ≤ linEntry (id : K → K) a b m j ∧
      linEntry (id : K → K) a b m j ≤ linEntry (id : K → K) a b m i ∧ linEntry (id : K → K) a b m i ≤ (a : ℤ) :=
    fun i j hij hj => linEntry_descends (by omega) hm2 hij hj
  have h0 : linEntry (id : K → K) a b m 0 = a := by
    rw [linEntry_exact _ _ hm2 (by omega)]; simp
  have hl : linEntry (id : K → K) a b m (m - 1) = b := linEntry_last _ _ _ hm2
  set nat : List ℕ := (List.range m).map fun i => (linEntry (id : K → K) a b m i).toNat with hnat
  have hcast : (List.range m).map (linEntry (id : K → K) a b m) = nat.map fun τ : ℕ => (τ : ℤ) := by
    rw [hnat, List.map_map]
    refine List.map_congr_left fun i hi => ?_
    have := (hE i i le_rfl (List.mem_range.1 hi)).1
    simp only [Function.comp]
    omega
  have hrange : ∀ τ ∈ nat, 1 ≤ τ ∧ τ ≤ dc.n1 := by
    intro τ hτ
    obtain ⟨i, hi, rfl⟩ := List.mem_map.1 hτ
    have := hE i i le_rfl (List.mem_range.1 hi)
    omega
  have hkept : nat.filter (fun τ => decide (1 < disjointWindows sel.indices.length dc.n1 τ)) = nat := by
    rw [List.filter_eq_self]
    intro τ hτ
    have := C12_nothing_skipped sel.indices.length dc.n1 hatoms τ (hrange τ hτ).1 (hrange τ hτ).2
    exact decide_eq_true (by omega)
  rw [hcast, getDisps_multi id _ _ _ _ _ _ nat dc hidx hrange]
  split_ifs with hmem
  · exact Or.inl rfl
  · right
    have hlast : (nat.map fun τ : ℕ => (τ : ℤ)).getLast? = some (b : ℤ) := by
      rw [← hcast, List.getLast?_map, List.getLast?_range, if_neg (by omega)]
      simp [hl]
    have hlastD : (nat.map fun τ : ℕ => (τ : ℤ)).getLastD 0 = (b : ℤ) := by
      rw [List.getLastD_eq_getLast?, hlast]; rfl
    refine ⟨_, rfl, ?_, ?_, hlast, ?_, ?_, ?_⟩
    · simp only
      rw [← hcast, List.pairwise_map]
      exact List.Pairwise.imp_of_mem (fun {i j} _ hj hij => (hE i j hij.le (List.mem_range.1 hj)).2.1) List.pairwise_lt_range
    · simp only
      rw [← hcast]
      simp [show 0 < m by omega, h0]
    · simp only [keptPairs, hkept, List.length_map]
    · simp only [keptPairs, hkept, List.map_map, hlastD]
      have : nat[0]? = some a := by simp [hnat, show 0 < m by omega, h0]
      simp [this]
    · have hN : (0 : K) < sel.indices.length := by exact_mod_cast (by omega : 0 < sel.indices.length)
      have ha0 : (0 : K) < a := by exact_mod_cast (by omega : 0 < a)
      have hba' : (b : K) < a := by exact_mod_cast hba
      rw [div_lt_iff₀ ha0]
      nlinarith

/-- Minimum of four frames, maximum of two, three atoms. -/
example : ∃ r, parserInit exNum { exParams with minDt := some 24, maxDt := some 13 } false exDc ⟨[0, 1, 2], ⟨false, []⟩⟩ = .ok r ∧
    r.intervals[0]? = some 4 ∧ r.nO[0]? = some (3 / 2) := by
  rcases C109_swapped exNum { exParams with minDt := some 24, maxDt := some 13 } exDc exDc rfl (by decide +kernel) rfl rfl (by decide)
    24 13 rfl rfl (by norm_num) (by norm_num) 4 2 (by decide +kernel) (by decide +kernel) (by norm_num) (by norm_num) (by decide)
    false ⟨[0, 1, 2], ⟨false, []⟩⟩ rfl (by unfold ValidIdx; decide) (by decide) with h | ⟨r, h, -, h0, -, -, hn, -⟩
  · obtain ⟨r, hr⟩ : ∃ r, parserInit exNum { exParams with minDt := some 24, maxDt := some 13 } false exDc
        ⟨[0, 1, 2], ⟨false, []⟩⟩ = .ok r := ok_of_isSome (by decide +kernel)
    rw [h] at hr; cases hr
  · exact ⟨r, h, h0, by rw [hn]; norm_num⟩

/-- **C109 is violated.** One atom, `min_dt` of four frames, `max_dt` of one frame: no error; the first reported time is four
frames (24) but the first displacements are those over one frame. -/
theorem C109_violated : ∃ r, parserInit exNum { exParams with minDt := some 24, maxDt := some 6 } false exDc ⟨[0], ⟨false, []⟩⟩ = .ok r ∧
    r.deltaT = [24, 6] ∧ ∃ a, r.disp3d = [a] ∧ IsWindows exDc [0] 1 a := by
  have hdc : correctDriftSeq ⟨false, []⟩ exDc = .ok exDc := rfl
  have hti : initTimeIntervals (id : ℚ → ℚ) exNum.geo exDc.n1 (.float 2) (.int 3) (some 24) (some 6) 100 "linear" = .ok [4, 1] := by
    refine ok_of_toOption ?_
    decide +kernel
  have hg := getDisps_multi (id : ℚ → ℚ) (id (1 / 10 ^ 9)) 8 (.float 2) (.int 3) [0] 8 [4, 1] exDc (by unfold ValidIdx; decide) (by decide)
  rw [if_neg (by decide +kernel)] at hg
  obtain ⟨r, hr⟩ : ∃ r, parserInit exNum { exParams with minDt := some 24, maxDt := some 6 } false exDc ⟨[0], ⟨false, []⟩⟩ = .ok r :=
    ok_of_isSome (by decide +kernel)
  refine ⟨r, hr, ?_⟩
  unfold parserInit at hr
  simp only [exParams, hdc, bind, Except.bind] at hr
  erw [hti] at hr
  simp only at hr
  erw [hg] at hr
  simp only [Except.ok.injEq] at hr
  subst hr
  refine ⟨by decide +kernel, _, rfl, ?_⟩
  exact windowArr_isWindows exDc [0] le_rfl (by decide)

/-- **C109, where it holds.** A `max_dt` shorter than one frame is rejected, whatever `min_dt` is: the zero interval cannot be
analysed. -/
theorem C109_below_one_frame_partial (E : Num K) (P : Params K) (hfl : E.fl = id) (hpos : 0 < P.stepSkip.val * P.timeStep.val)
    (hs : P.sampling = "multi-origin") (hn : 2 ≤ P.nSteps)
    (hmin : ∀ x, P.minDt = some x → 0 ≤ x) (y : K) (hy : P.maxDt = some y) (hy0 : 0 ≤ y)
    (hy1 : y < P.stepSkip.val * P.timeStep.val) (w : Bool) (disp : Arr3 K) (sel : Selection) :
    ∃ e, parserInit E P w disp sel = .error e := by
  unfold parserInit
  rw [hfl, hs, hy]
  cases hdc : correctDriftSeq sel.drift disp with
  | error e => exact ⟨e, rfl⟩
  | ok dc =>
  simp only [bind, Except.bind]
  cases hti : initTimeIntervals id E.geo dc.n1 P.timeStep P.stepSkip P.minDt (some y) P.nSteps P.spacing with
  | error e => exact ⟨e, rfl⟩
  | ok ti =>
  simp only
  cases hgd : getDisps id (id (1 / 10 ^ 9)) P.itemsize P.timeStep P.stepSkip sel.indices "multi-origin" P.memoryLimit ti dc with
  | error e => exact ⟨e, rfl⟩
  | ok o =>
  exfalso
  set d := P.stepSkip.val * P.timeStep.val with hd
  have hfy : ⌊y / d⌋ = 0 := by
    rw [Int.floor_eq_zero_iff, Set.mem_Ico]
    exact ⟨div_nonneg hy0 hpos.le, (div_lt_one hpos).2 hy1⟩
  set x := minDtOf id P.timeStep P.stepSkip P.minDt with hx
  have hx' : 0 ≤ x := by
    rw [hx]
    cases h : P.minDt with
    | none => simp only [minDtOf, PyNum.val_mul_id]; exact hpos.le
    | some z => exact hmin z h
  have hm0 : 0 ≤ ⌊x / d⌋ := Int.floor_nonneg.2 (div_nonneg hx' hpos.le)
  suffices h : (0 : ℤ) ∈ ti from (getDisps_ok_interval hgd 0 h).1 rfl
  unfold initTimeIntervals at hti
  simp only [maxDtOf] at hti
  rw [← hx, stepsOf_id hpos hx', ← hd] at hti
  simp only [bind, Except.bind] at hti
  by_cases hT : (dc.n1 : ℤ) ≤ ⌊x / d⌋
  · rw [if_pos hT] at hti; cases hti
  rw [if_neg hT] at hti
  set n : ℤ := if P.nSteps > (dc.n1 : ℤ) - ⌊x / d⌋ + 1 then (dc.n1 : ℤ) - ⌊x / d⌋ + 1 else P.nSteps with hnn
  have hn2 : 2 ≤ n := by rw [hnn]; split_ifs <;> omega
  obtain ⟨m, hm⟩ : ∃ m : ℕ, n = m := ⟨n.toNat, by omega⟩
  unfold getTimeIntervals at hti
  rw [stepsOf_id hpos hx', stepsOf_id hpos hy0, ← hd, hfy, hm] at hti
  simp only [bind, Except.bind] at hti
  split_ifs at hti with h1 h2
  all_goals first
    | (rw [linspaceInt_nat, Except.ok.injEq] at hti
       rw [← hti, List.mem_map]
       exact ⟨m - 1, List.mem_range.2 (by omega), linEntry_last _ _ _ (by omega)⟩)
    | (unfold geomspaceInt at hti
       rw [if_pos (Or.inr rfl)] at hti
       cases hti)

/-- Minimum of two frames, maximum of half a frame. -/
example : ∃ e, parserInit exNum { exParams with minDt := some 12, maxDt := some 3 } false exDc ⟨[0, 1], ⟨false, []⟩⟩ = .error e :=
  C109_below_one_frame_partial exNum _ rfl (by decide +kernel) rfl (by decide)
    (by intro x h; obtain rfl : (12 : ℚ) = x := Option.some.inj h; norm_num) 3 rfl (by norm_num) (by decide +kernel) _ _ _

end Kinisi
