import Verif.Lemmas.Disp
import Verif.Lemmas.TimeGrid
import Verif.Model.GetDisps
import Verif.Spec.Windows

set_option linter.unusedSectionVars false

namespace Kinisi
open Spec
variable {K : Type} [Field K] [LinearOrder K] [IsStrictOrderedRing K] [FloorRing K]

theorem sliceBound_nat (n : ℕ) (i : ℕ) : sliceBound n i = min i n := by
  unfold sliceBound; rw [if_neg (by omega)]; simp

theorem sliceBound_neg (n : ℕ) (i : ℕ) (hi : 1 ≤ i) : sliceBound n (-(i : ℤ)) = n - i := by
  unfold sliceBound; rw [if_pos (by omega)]; omega

theorem rows_ok {idx : List ℤ} {n : ℕ} (h : ∀ d ∈ idx, ValidIdx n d) : idx.mapM (npIdx n) = .ok (idx.map (atomOf n)) :=
  mapM_except_ok _ _ _ fun d hd => npIdx_valid (h d hd)

/-- The window array as a plain definition. -/
def windowArr (dc : Arr3 K) (rows : List ℕ) (τ : ℕ) : Arr3 K :=
  { n0 := rows.length
    n1 := 1 + (dc.n1 - τ)
    get := fun r k =>
      let row := rows.getD r 0
      if k = 0 then dc.get row (τ - 1)
      else fun l => dc.get row (τ + (k - 1)) l - dc.get row (k - 1) l }

theorem multiOrigin_ok (dc : Arr3 K) (rows : List ℕ) {τ : ℕ} (h1 : 1 ≤ τ) (h2 : τ ≤ dc.n1) :
    multiOrigin dc rows τ = .ok (windowArr dc rows τ) := by
  unfold multiOrigin
  have hv : ValidIdx dc.n1 ((τ : ℤ) - 1) := by constructor <;> omega
  have ha : atomOf dc.n1 ((τ : ℤ) - 1) = τ - 1 := by unfold atomOf; rw [if_neg (by omega)]; omega
  rw [npIdx_valid hv, ha]
  simp only [bind, Except.bind]
  rw [sliceBound_nat, sliceBound_neg _ _ h1, min_eq_left h2, if_neg (by omega)]
  rfl

theorem multiOrigin_big (dc : Arr3 K) (rows : List ℕ) {τ : ℤ} (h2 : (dc.n1 : ℤ) < τ) :
    multiOrigin dc rows τ = .error .indexError := by
  unfold multiOrigin
  rw [npIdx_invalid (by unfold ValidIdx; omega)]
  rfl

theorem windowArr_isWindows (dc : Arr3 K) (rows : List ℕ) {τ : ℕ} (h1 : 1 ≤ τ) (h2 : τ ≤ dc.n1) :
    IsWindows dc rows τ (windowArr dc rows τ) := by
  refine ⟨rfl, by simp only [windowArr]; omega, ?_⟩
  intro r hr k hk l
  simp only [windowArr] at hk ⊢
  have hg : rows.getD r 0 = rows[r] := by simp [List.getD, hr]
  rw [hg]
  unfold after
  by_cases h0 : k = 0
  · subst h0
    rw [if_pos rfl, if_neg (by omega), if_pos rfl]
    simp
  · rw [if_neg h0, if_neg (by omega), if_neg h0]
    have : τ + (k - 1) = k + τ - 1 := by omega
    rw [this]

theorem strideCount_windows {T τ : ℕ} (h1 : 1 ≤ τ) (h2 : τ ≤ T) : strideCount (1 + (T - τ)) (τ : ℤ) = T / τ := by
  unfold strideCount
  simp only [Int.natAbs_natCast]
  congr 1
  omega

theorem oneInterval_multi (fl : K → K) {idx : List ℤ} (last : ℤ) (dc : Arr3 K) (hidx : ∀ d ∈ idx, ValidIdx dc.n0 d)
    {τ : ℕ} (h1 : 1 ≤ τ) (h2 : τ ≤ dc.n1) (i : ℕ) :
    oneInterval fl idx "multi-origin" last dc ((τ : ℤ), i) =
      .ok (if disjointWindows idx.length dc.n1 τ ≤ 1 then none
        else some (windowArr dc (idx.map (atomOf dc.n0)) τ, fl ((((idx.length : ℤ) * last : ℤ) : K) / ((τ : ℤ) : K)))) := by
  unfold oneInterval
  rw [rows_ok hidx]
  simp only [bind, Except.bind]
  rw [if_neg (show ¬ "multi-origin" = "single-origin" by decide), if_pos trivial, multiOrigin_ok dc _ h1 h2]
  simp only
  rw [if_neg (by omega)]
  have : (windowArr dc (idx.map (atomOf dc.n0)) τ).n0 * strideCount (windowArr dc (idx.map (atomOf dc.n0)) τ).n1 (τ : ℤ)
      = disjointWindows idx.length dc.n1 τ := by
    simp only [windowArr, List.length_map]
    rw [strideCount_windows h1 h2]; rfl
  rw [this]
  split_ifs
  · rfl
  · simp [windowArr]

/-- The arrays and counts kept by the loop. -/
def keptPairs (fl : K → K) (idx : List ℤ) (last : ℤ) (dc : Arr3 K) (intervals : List ℕ) : List (Arr3 K × K) :=
  (intervals.filter fun τ => decide (1 < disjointWindows idx.length dc.n1 τ)).map fun τ =>
    (windowArr dc (idx.map (atomOf dc.n0)) τ, fl ((((idx.length : ℤ) * last : ℤ) : K) / ((τ : ℤ) : K)))

theorem reduce_eq (fl : K → K) (idx : List ℤ) (last : ℤ) (dc : Arr3 K) (l : List (ℤ × ℕ)) (nat : List ℕ)
    (hl : l.map Prod.fst = nat.map fun τ : ℕ => (τ : ℤ)) :
    (l.map fun p => (if disjointWindows idx.length dc.n1 p.1.toNat ≤ 1 then none
        else some (windowArr dc (idx.map (atomOf dc.n0)) p.1.toNat, fl ((((idx.length : ℤ) * last : ℤ) : K) / (p.1 : K))) :
          Option (Arr3 K × K))).filterMap id = keptPairs fl idx last dc nat := by
  induction l generalizing nat with
  | nil => cases nat <;> simp_all [keptPairs]
  | cons p l ih =>
    cases nat with
    | nil => simp at hl
    | cons τ nat =>
      simp only [List.map_cons, List.cons.injEq] at hl
      obtain ⟨h1, h2⟩ := hl
      have := ih nat h2
      simp only [List.map_cons, h1, Int.toNat_natCast]
      unfold keptPairs at this ⊢
      by_cases h : disjointWindows idx.length dc.n1 τ ≤ 1
      · rw [if_pos h, List.filterMap_cons_none rfl, this, List.filter_cons_of_neg]
        simpa using h
      · rw [if_neg h, List.filterMap_cons_some (f := (id : Option (Arr3 K × K) → _)) rfl, this, List.filter_cons_of_pos (by simpa using h)]
        rfl

theorem zipIdx_mem {α : Type} {l : List α} {p : α × ℕ} (h : p ∈ l.zipIdx) : p.1 ∈ l := by
  obtain ⟨x, i⟩ := p
  exact List.fst_mem_of_mem_zipIdx h

/-- Evaluation of `get_disps` for multi-origin sampling with intervals in range and valid rows. -/
theorem getDisps_multi (fl : K → K) (giga : K) (itemsize : ℕ) (ts ss : PyNum K) (idx : List ℤ) (limit : K) (nat : List ℕ)
    (dc : Arr3 K) (hidx : ∀ d ∈ idx, ValidIdx dc.n0 d) (hτ : ∀ τ ∈ nat, 1 ≤ τ ∧ τ ≤ dc.n1) :
    getDisps fl giga itemsize ts ss idx "multi-origin" limit (nat.map fun τ : ℕ => (τ : ℤ)) dc =
      if limit < fl ((windowBytes itemsize idx.length dc.n1 nat : K) * giga) then .error .memoryError
      else .ok { deltaT := nat.map fun τ : ℕ => (deltaTOf fl ts ss τ).val
                 disp3d := (keptPairs fl idx ((nat.map fun τ : ℕ => (τ : ℤ)).getLastD 0) dc nat).map Prod.fst
                 nO := (keptPairs fl idx ((nat.map fun τ : ℕ => (τ : ℤ)).getLastD 0) dc nat).map Prod.snd } := by
  unfold getDisps
  have hb : ((nat.map fun τ : ℕ => (τ : ℤ)).map fun τ => intervalBytes itemsize idx.length dc.n1 τ).sum
      = windowBytes itemsize idx.length dc.n1 nat := by
    unfold windowBytes
    rw [List.map_map]
    congr 1
    apply List.map_congr_left
    intro τ h
    obtain ⟨h1, h2⟩ := hτ τ h
    simp only [Function.comp, intervalBytes, sliceBound_nat, min_eq_left h2]
    obtain ⟨m, hm⟩ : ∃ m, dc.n1 - τ = m := ⟨_, rfl⟩
    have : dc.n1 + 1 - τ = m + 1 := by omega
    rw [hm, this]; ring
  have hr : checkRows (nat.map fun τ : ℕ => (τ : ℤ)) idx dc.n0
      = .ok (if (nat.map fun τ : ℕ => (τ : ℤ)).length = 0 then [] else idx.map (atomOf dc.n0)) := by
    unfold checkRows
    split_ifs
    · rfl
    · exact rows_ok hidx
  rw [hr]
  simp only [bind, Except.bind]
  rw [hb]
  by_cases hm : limit < fl ((windowBytes itemsize idx.length dc.n1 nat : K) * giga)
  · rw [if_pos hm, if_pos hm]
  · rw [if_neg hm, if_neg hm]
    have hmm := mapM_except_ok (oneInterval fl idx "multi-origin" ((nat.map fun τ : ℕ => (τ : ℤ)).getLastD 0) dc)
      (fun p => (if disjointWindows idx.length dc.n1 p.1.toNat ≤ 1 then none
        else some (windowArr dc (idx.map (atomOf dc.n0)) p.1.toNat,
          fl ((((idx.length : ℤ) * (nat.map fun τ : ℕ => (τ : ℤ)).getLastD 0 : ℤ) : K) / (p.1 : K)))))
      (nat.map fun τ : ℕ => (τ : ℤ)).zipIdx ?_
    · rw [hmm]
      simp only
      rw [reduce_eq fl idx _ dc _ nat (by simp)]
      simp [Function.comp]
    · rintro ⟨z, i⟩ hp
      have := zipIdx_mem hp
      obtain ⟨τ, hτm, rfl⟩ := List.mem_map.1 this
      obtain ⟨h1, h2⟩ := hτ τ hτm
      rw [oneInterval_multi fl _ dc hidx h1 h2]
      simp

theorem filterMap_some_map {α β : Type} (l : List α) (f : α → β) : (l.map fun x => some (f x)).filterMap id = l.map f := by
  induction l with
  | nil => rfl
  | cons a l ih => rw [List.map_cons, List.filterMap_cons_some (f := (id : Option β → _)) rfl, ih]; rfl

/-- Evaluation of `get_disps` for single-origin sampling with at least two atoms and not more intervals than steps. -/
theorem getDisps_single (fl : K → K) (giga : K) (itemsize : ℕ) (ts ss : PyNum K) (idx : List ℤ) (limit : K) (iv : List ℤ)
    (dc : Arr3 K) (hidx : ∀ d ∈ idx, ValidIdx dc.n0 d) (h2 : 2 ≤ idx.length) (hτ : ∀ τ ∈ iv, τ ≠ 0) (hlen : iv.length ≤ dc.n1)
    (hmem : ¬ limit < fl (((iv.map fun τ => intervalBytes itemsize idx.length dc.n1 τ).sum : ℕ) * giga)) :
    getDisps fl giga itemsize ts ss idx "single-origin" limit iv dc = .ok
      { deltaT := iv.map fun τ => (deltaTOf fl ts ss τ).val
        disp3d := iv.zipIdx.map fun p => singleOrigin dc (idx.map (atomOf dc.n0)) p.2
        nO := iv.zipIdx.map fun p => fl ((((idx.length : ℤ) * iv.getLastD 0 : ℤ) : K) / (p.1 : K)) } := by
  unfold getDisps
  have hr : checkRows iv idx dc.n0 = .ok (if iv.length = 0 then [] else idx.map (atomOf dc.n0)) := by
    unfold checkRows
    split_ifs
    · rfl
    · exact rows_ok hidx
  rw [hr]
  simp only [bind, Except.bind]
  rw [if_neg hmem]
  have hmm := mapM_except_ok (oneInterval fl idx "single-origin" (iv.getLastD 0) dc)
    (fun p => some (singleOrigin dc (idx.map (atomOf dc.n0)) p.2, fl ((((idx.length : ℤ) * iv.getLastD 0 : ℤ) : K) / (p.1 : K))))
    iv.zipIdx ?_
  · rw [hmm]
    simp only
    rw [filterMap_some_map]
    simp [Function.comp_def]
  · rintro ⟨τ, i⟩ hp
    have h0 := hτ τ (zipIdx_mem hp)
    have hi : i < iv.length := by
      have := List.snd_lt_of_mem_zipIdx hp
      simpa using this
    unfold oneInterval
    rw [rows_ok hidx]
    simp only [bind, Except.bind]
    rw [if_pos trivial, if_neg h0]
    have hn1 : (singleOrigin dc (idx.map (atomOf dc.n0)) i).n1 = 1 := by
      have e : ((i : ℤ) + 1) = ((i + 1 : ℕ) : ℤ) := by push_cast; ring
      simp only [singleOrigin, e, sliceBound_nat]
      omega
    have hsc : strideCount 1 τ = 1 := by
      unfold strideCount
      have : 0 < τ.natAbs := by omega
      rw [show 1 + τ.natAbs - 1 = τ.natAbs by omega, Nat.div_self this]
    rw [if_neg (by rw [hn1, hsc]; simp [singleOrigin]; omega)]
    simp [singleOrigin]

theorem filter_eq_take {p : ℕ → Bool} (hp : ∀ a b, a ≤ b → p b = true → p a = true) {l : List ℕ} (hl : l.Pairwise (· ≤ ·)) :
    l.filter p = l.take (l.filter p).length := by
  induction l with
  | nil => simp
  | cons a l ih =>
    rw [List.pairwise_cons] at hl
    by_cases h : p a = true
    · rw [List.filter_cons_of_pos h, List.length_cons, List.take_succ_cons, ← ih hl.2]
    · have : l.filter p = [] := by
        rw [List.filter_eq_nil_iff]
        intro b hb hpb
        exact h (hp a b (hl.1 b hb) hpb)
      rw [List.filter_cons_of_neg h, this]
      simp

theorem disjointWindows_anti (n T : ℕ) {a b : ℕ} (h0 : 0 < a) (h : a ≤ b) : disjointWindows n T b ≤ disjointWindows n T a := by
  unfold disjointWindows
  exact Nat.mul_le_mul_left _ (Nat.div_le_div_left h h0)

theorem oneInterval_multi_inv {fl : K → K} {idx : List ℤ} {last : ℤ} {dc : Arr3 K} {τ : ℤ} {i : ℕ} {v : Option (Arr3 K × K)}
    (h : oneInterval fl idx "multi-origin" last dc (τ, i) = .ok v) : τ ≠ 0 ∧ τ ≤ dc.n1 := by
  unfold oneInterval at h
  cases hr : idx.mapM (npIdx dc.n0) with
  | error e => rw [hr] at h; simp [bind, Except.bind] at h
  | ok rows =>
  rw [hr] at h
  simp only [bind, Except.bind] at h
  rw [if_neg (show ¬ "multi-origin" = "single-origin" by decide), if_pos trivial] at h
  by_cases hb : (dc.n1 : ℤ) < τ
  · rw [multiOrigin_big dc rows hb] at h
    simp at h
  · refine ⟨?_, by omega⟩
    rintro rfl
    cases hm : multiOrigin dc rows 0 with
    | error e => rw [hm] at h; simp at h
    | ok a => rw [hm] at h; simp at h

theorem getDisps_ok_interval {fl : K → K} {giga : K} {itemsize : ℕ} {ts ss : PyNum K} {idx : List ℤ} {limit : K} {iv : List ℤ}
    {dc : Arr3 K} {o : DispsOut K} (h : getDisps fl giga itemsize ts ss idx "multi-origin" limit iv dc = .ok o) :
    ∀ τ ∈ iv, τ ≠ 0 ∧ τ ≤ dc.n1 := by
  unfold getDisps at h
  cases hr : checkRows iv idx dc.n0 with
  | error e => rw [hr] at h; simp [bind, Except.bind] at h
  | ok rows =>
  rw [hr] at h
  simp only [bind, Except.bind] at h
  split_ifs at h
  cases hm : iv.zipIdx.mapM (oneInterval fl idx "multi-origin" (iv.getLastD 0) dc) with
  | error e => rw [hm] at h; simp at h
  | ok v =>
  obtain ⟨hl, hv⟩ := mapM_except_inv hm
  intro τ hτ
  obtain ⟨i, hi, rfl⟩ := List.getElem_of_mem hτ
  have := hv i (by simpa using hi) (by rw [hl]; simpa using hi)
  rw [List.getElem_zipIdx] at this
  exact oneInterval_multi_inv this

/-- An interval beyond the last step: error. -/
theorem getDisps_beyond {fl : K → K} {giga : K} {itemsize : ℕ} {ts ss : PyNum K} {idx : List ℤ} {limit : K} {iv : List ℤ}
    {dc : Arr3 K} (hidx : ∀ d ∈ idx, ValidIdx dc.n0 d) (h1 : ∀ τ ∈ iv, 1 ≤ τ) (b : ℤ) (hb : b ∈ iv) (hbig : (dc.n1 : ℤ) < b) :
    getDisps fl giga itemsize ts ss idx "multi-origin" limit iv dc = .error .indexError ∨
    getDisps fl giga itemsize ts ss idx "multi-origin" limit iv dc = .error .memoryError := by
  unfold getDisps
  have hr : checkRows iv idx dc.n0 = .ok (if iv.length = 0 then [] else idx.map (atomOf dc.n0)) := by
    unfold checkRows
    split_ifs
    · rfl
    · exact rows_ok hidx
  rw [hr]
  simp only [bind, Except.bind]
  split_ifs
  · exact Or.inr rfl
  · left
    obtain ⟨i, hi, hib⟩ := List.getElem_of_mem hb
    have herr : ∀ τ : ℤ, (dc.n1 : ℤ) < τ → ∀ j, oneInterval fl idx "multi-origin" (iv.getLastD 0) dc (τ, j) = .error .indexError := by
      intro τ hτ j
      unfold oneInterval
      rw [rows_ok hidx]
      simp only [bind, Except.bind]
      rw [if_neg (show ¬ "multi-origin" = "single-origin" by decide), if_pos trivial, multiOrigin_big dc _ hτ]
    have := mapM_except_err (oneInterval fl idx "multi-origin" (iv.getLastD 0) dc) .indexError iv.zipIdx (b, i)
      (by rw [List.mk_mem_zipIdx_iff_getElem?, List.getElem?_eq_getElem hi, hib]) (herr b hbig i) ?_
    · rw [this]
    · rintro ⟨τ, j⟩ hp
      by_cases hτ : (dc.n1 : ℤ) < τ
      · exact Or.inl (herr τ hτ j)
      · right
        have h1' := h1 τ (zipIdx_mem hp)
        obtain ⟨t, rfl⟩ : ∃ t : ℕ, τ = t := ⟨τ.toNat, by omega⟩
        exact ⟨_, oneInterval_multi fl _ dc hidx (by omega) (by omega) j⟩

theorem linEntry_nonneg {a b : ℤ} (ha : 0 ≤ a) (hb : 0 ≤ b) {n : ℕ} (i : ℕ) (hi : i < n) :
    0 ≤ linEntry (id : K → K) a b n i := by
  by_cases hn : 2 ≤ n
  · rw [linEntry_exact a b hn hi]
    apply Int.floor_nonneg.2
    have ha' : (0 : K) ≤ a := by exact_mod_cast ha
    have hb' : (0 : K) ≤ b := by exact_mod_cast hb
    have hn2 : (2 : K) ≤ n := by exact_mod_cast hn
    have hn1 : (0 : K) < (n : K) - 1 := by linarith
    have hi' : (i : K) ≤ (n : K) - 1 := by
      have : ((i + 1 : ℕ) : K) ≤ n := by exact_mod_cast hi
      push_cast at this; linarith
    have e : (a : K) + (i : K) * ((b - a : ℤ) : K) / ((n : K) - 1) = ((((n : K) - 1) - i) * a + i * b) / ((n : K) - 1) := by
      push_cast; field_simp; ring
    rw [e]
    apply div_nonneg _ hn1.le
    have : (0 : K) ≤ (n : K) - 1 - i := by linarith
    positivity
  · have : n = 1 := by omega
    subst this
    simpa [linEntry] using ha

theorem initTimeIntervals_nonneg (geo : ℤ → ℤ → ℕ → ℕ → K) (hgeo : ∀ a b n i, 0 ≤ a → 0 ≤ b → 0 ≤ geo a b n i) (T : ℕ)
    (ts ss : PyNum K) (hpos : 0 < ss.val * ts.val) (minDt maxDt : Option K) (hmin : ∀ x, minDt = some x → 0 ≤ x)
    (hmax : ∀ x, maxDt = some x → 0 ≤ x) (nSteps : ℤ) (spacing : String) (ti : List ℤ)
    (h : initTimeIntervals id geo T ts ss minDt maxDt nSteps spacing = .ok ti) : ∀ τ ∈ ti, 0 ≤ τ := by
  unfold initTimeIntervals at h
  set x := minDtOf id ts ss minDt with hx
  set y := maxDtOf id T ts ss maxDt with hy
  have hx0 : 0 ≤ x := by
    rw [hx]
    cases hm : minDt with
    | none => simp only [minDtOf, PyNum.val_mul_id]; exact hpos.le
    | some z => exact hmin z hm
  have hy0 : 0 ≤ y := by
    rw [hy]
    cases hm : maxDt with
    | none => rw [maxDtOf, PyNum.val_mul_id, PyNum.val_mul_id]; exact mul_nonneg (by simp [PyNum.val]) hpos.le
    | some z => exact hmax z hm
  simp only at h
  rw [stepsOf_id hpos hx0] at h
  simp only [bind, Except.bind] at h
  by_cases hT : ⌊x / (ss.val * ts.val)⌋ ≥ (T : ℤ)
  · rw [if_pos hT] at h; simp at h
  rw [if_neg hT] at h
  generalize (if nSteps > (T : ℤ) - ⌊x / (ss.val * ts.val)⌋ + 1 then (T : ℤ) - ⌊x / (ss.val * ts.val)⌋ + 1 else nSteps) = n at h
  unfold getTimeIntervals at h
  rw [stepsOf_id hpos hx0, stepsOf_id hpos hy0] at h
  simp only [bind, Except.bind] at h
  have hfx : 0 ≤ ⌊x / (ss.val * ts.val)⌋ := Int.floor_nonneg.2 (div_nonneg hx0 hpos.le)
  have hfy : 0 ≤ ⌊y / (ss.val * ts.val)⌋ := Int.floor_nonneg.2 (div_nonneg hy0 hpos.le)
  have ha : 0 ≤ (if ⌊x / (ss.val * ts.val)⌋ = 0 then (1 : ℤ) else ⌊x / (ss.val * ts.val)⌋) := by split_ifs <;> omega
  generalize (if ⌊x / (ss.val * ts.val)⌋ = 0 then (1 : ℤ) else ⌊x / (ss.val * ts.val)⌋) = a at h ha
  generalize ⌊y / (ss.val * ts.val)⌋ = b at h hfy
  intro τ hτ
  by_cases h1 : spacing = "linear"
  · rw [if_pos h1] at h
    by_cases hn : n < 0
    · unfold linspaceInt at h; rw [if_pos hn] at h; simp at h
    · obtain ⟨m, rfl⟩ : ∃ m : ℕ, n = m := ⟨n.toNat, by omega⟩
      rw [linspaceInt_nat] at h
      obtain rfl := Except.ok.inj h
      obtain ⟨i, hi, rfl⟩ := List.mem_map.1 hτ
      exact linEntry_nonneg ha hfy i (List.mem_range.1 hi)
  · rw [if_neg h1] at h
    by_cases h2 : spacing = "logarithmic"
    · rw [if_pos h2] at h
      unfold geomspaceInt at h
      split_ifs at h
      · simp [Except.map] at h
      · simp [Except.map] at h
      · simp only [Except.map] at h
        obtain rfl := Except.ok.inj h
        unfold npUnique at hτ
        rw [Finset.mem_sort, List.mem_toFinset, List.mem_map] at hτ
        obtain ⟨i, -, rfl⟩ := hτ
        split_ifs
        · exact hfy
        · exact ha
        · have := hgeo a b n.toNat i ha hfy
          rw [pyInt_nonneg this]
          exact Int.floor_nonneg.2 this
    · rw [if_neg h2] at h; simp at h

end Kinisi
