import Verif.Lemmas.TimeGrid
import Verif.Model.RealFns
import Mathlib.Tactic.IntervalCases

/-!
# C07–C10, C73: time intervals
-/

set_option linter.unusedSectionVars false

namespace Kinisi
open Spec
variable {K : Type} [Field K] [LinearOrder K] [IsStrictOrderedRing K] [FloorRing K]

/-- **C07**, exact arithmetic.  `d` is the time between frames, `a` and `b` the first and last interval in frames. -/
theorem C07_linear_intervals (geo : ℤ → ℤ → ℕ → ℕ → K) (ts ss : PyNum K) (d : K) (hd : d = ss.val * ts.val) (hpos : 0 < d)
    (minDt maxDt : K) (hmin : 0 ≤ minDt) (hmax : 0 ≤ maxDt) (a b : ℤ) (ha : a = max 1 ⌊minDt / d⌋) (hb : b = ⌊maxDt / d⌋)
    (hab : a ≤ b) (n : ℕ) (hn : 2 ≤ n) :
    ∃ l, getTimeIntervals id geo ts ss minDt maxDt n "linear" = .ok l ∧ l.length = n ∧
      l[0]? = some a ∧ l[n - 1]? = some b ∧ l.Pairwise (· ≤ ·) ∧ (∀ τ ∈ l, a ≤ τ ∧ τ ≤ b) ∧
      ∀ i < n, l[i]? = some ⌊(a : K) + (i : K) * ((b - a : ℤ) : K) / ((n : K) - 1)⌋ := by
  subst hd
  have hm0 : 0 ≤ ⌊minDt / (ss.val * ts.val)⌋ := Int.floor_nonneg.2 (div_nonneg hmin hpos.le)
  have hfa : (if ⌊minDt / (ss.val * ts.val)⌋ = 0 then (1 : ℤ) else ⌊minDt / (ss.val * ts.val)⌋) = a := by
    rw [ha]; split_ifs with h
    · rw [h]; rfl
    · exact (max_eq_right (by omega)).symm
  have R : Rounding (id : K → K) (a.natAbs + b.natAbs + (b - a).natAbs + n) := rounding_id _
  have h1 : |a| ≤ ((a.natAbs + b.natAbs + (b - a).natAbs + n : ℕ) : ℤ) := by rw [abs_le]; constructor <;> omega
  have h2 : |b| ≤ ((a.natAbs + b.natAbs + (b - a).natAbs + n : ℕ) : ℤ) := by rw [abs_le]; constructor <;> omega
  have h3 : b - a ≤ ((a.natAbs + b.natAbs + (b - a).natAbs + n : ℕ) : ℤ) := by omega
  refine ⟨(List.range n).map (linEntry (id : K → K) a b n), ?_, by simp, ?_, ?_, ?_, ?_, ?_⟩
  · rw [getTimeIntervals_linear (stepsOf_id hpos hmin) (stepsOf_id hpos hmax), hfa, ← hb, linspaceInt_nat]
  · simp [show 0 < n by omega, linEntry_zero R hab h1 h2 h3 hn (by omega)]
  · simp [show n - 1 < n by omega, linEntry_last _ _ _ hn]
  · exact linList_pairwise R hab h1 h2 h3 hn (by omega)
  · intro τ hτ
    obtain ⟨i, hi, rfl⟩ := List.mem_map.1 hτ
    exact linEntry_bounds R hab h1 h2 h3 hn (by omega) (List.mem_range.1 hi)
  · intro i hi
    simp [hi, linEntry_exact a b hn hi]

example : ∃ l, getTimeIntervals id (fun _ _ _ _ => (0 : ℚ)) (.float (1 / 2)) (.int 4) 0 21 4 "linear" = .ok l ∧ l = [1, 4, 7, 10] :=
  ⟨_, by decide +kernel, rfl⟩

/-- **C07**, any monotone rounding that is exact on small integers (binary64 in particular, `rounding_fl64`): count, end
points, order and range do not depend on rounding. -/
theorem C07_linear_intervals_rounded (fl : K → K) (N : ℕ) (R : Rounding fl N) (geo : ℤ → ℤ → ℕ → ℕ → K) (ts ss : PyNum K)
    (minDt maxDt : K) (m b : ℤ) (hm : stepsOf fl ts ss minDt = .ok m) (hb : stepsOf fl ts ss maxDt = .ok b)
    (a : ℤ) (ha : a = if m = 0 then 1 else m) (hab : a ≤ b) (hra : |a| ≤ N) (hrb : |b| ≤ N) (hr : b - a ≤ N)
    (n : ℕ) (hn : 2 ≤ n) (hnN : n ≤ N + 1) :
    ∃ l, getTimeIntervals fl geo ts ss minDt maxDt n "linear" = .ok l ∧ l.length = n ∧
      l[0]? = some a ∧ l[n - 1]? = some b ∧ l.Pairwise (· ≤ ·) ∧ ∀ τ ∈ l, a ≤ τ ∧ τ ≤ b := by
  refine ⟨(List.range n).map (linEntry fl a b n), ?_, by simp, ?_, ?_, ?_, ?_⟩
  · rw [getTimeIntervals_linear hm hb, ← ha, linspaceInt_nat]
  · simp [show 0 < n by omega, linEntry_zero R hab hra hrb hr hn hnN]
  · simp [show n - 1 < n by omega, linEntry_last _ _ _ hn]
  · exact linList_pairwise R hab hra hrb hr hn hnN
  · intro τ hτ
    obtain ⟨i, hi, rfl⟩ := List.mem_map.1 hτ
    exact linEntry_bounds R hab hra hrb hr hn hnN (List.mem_range.1 hi)

example : stepsOf fl64 (.float (fl64 (1 / 10))) (.int 1) (fl64 (7 / 10)) = .ok 6 ∧
    getTimeIntervals fl64 (fun _ _ _ _ => 0) (.float (fl64 (1 / 10))) (.int 1) (fl64 (2 / 10)) (fl64 (8 / 10)) 3 "linear" = .ok [2, 5, 8] := by
  constructor <;> decide +kernel

/-- **C07**, degenerate counts: one step gives the minimum, none gives nothing, a negative count is a ValueError. -/
theorem C07_degenerate_counts (fl : K → K) (geo : ℤ → ℤ → ℕ → ℕ → K) (ts ss : PyNum K) (minDt maxDt : K) (m b : ℤ)
    (hm : stepsOf fl ts ss minDt = .ok m) (hb : stepsOf fl ts ss maxDt = .ok b) :
    getTimeIntervals fl geo ts ss minDt maxDt 1 "linear" = .ok [if m = 0 then 1 else m] ∧
    getTimeIntervals fl geo ts ss minDt maxDt 0 "linear" = .ok [] ∧
    ∀ n < 0, getTimeIntervals fl geo ts ss minDt maxDt n "linear" = .error .valueError := by
  refine ⟨?_, ?_, ?_⟩
  · rw [getTimeIntervals_linear hm hb, show (1 : ℤ) = ((1 : ℕ) : ℤ) by rfl, linspaceInt_nat]; simp [linEntry]
  · rw [getTimeIntervals_linear hm hb, show (0 : ℤ) = ((0 : ℕ) : ℤ) by rfl, linspaceInt_nat]; simp
  · intro n hn
    rw [getTimeIntervals_linear hm hb, linspaceInt, if_pos hn]

/-- **C08, exact criterion.** Linear intervals are pairwise distinct iff there are at most `b - a + 1` of them. -/
theorem C08_distinct_iff_partial (geo : ℤ → ℤ → ℕ → ℕ → K) (ts ss : PyNum K) (d : K) (hd : d = ss.val * ts.val) (hpos : 0 < d)
    (minDt maxDt : K) (hmin : 0 ≤ minDt) (hmax : 0 ≤ maxDt) (a b : ℤ) (ha : a = max 1 ⌊minDt / d⌋) (hb : b = ⌊maxDt / d⌋)
    (hab : a ≤ b) (n : ℕ) :
    ∃ l, getTimeIntervals id geo ts ss minDt maxDt n "linear" = .ok l ∧ (l.Nodup ↔ (n : ℤ) ≤ b - a + 1) := by
  have hd' := hd
  by_cases hn : 2 ≤ n
  · obtain ⟨l, hl, hlen, -, -, -, hr, he⟩ := C07_linear_intervals geo ts ss d hd hpos minDt maxDt hmin hmax a b ha hb hab n hn
    refine ⟨l, hl, fun h => ?_, fun h => ?_⟩
    · have := nodup_length_le h hr
      rw [hlen] at this
      omega
    · have hlist : l = (List.range n).map (linEntry (id : K → K) a b n) := by
        apply List.ext_getElem?
        intro i
        by_cases hi : i < n
        · rw [he i hi]; simp [hi, linEntry_exact a b hn hi]
        · rw [List.getElem?_eq_none (by omega), List.getElem?_eq_none (by simp; omega)]
      rw [hlist]
      apply List.Nodup.map_on _ (List.nodup_range)
      intro i hi j hj hij
      rw [List.mem_range] at hi hj
      rcases lt_trichotomy i j with h' | h' | h'
      · exact absurd hij (linEntry_strict hn h h' hj).ne
      · exact h'
      · exact absurd hij (linEntry_strict hn h h' hi).ne'
  · subst hd'
    have h01 : n = 0 ∨ n = 1 := by omega
    obtain ⟨h1, h0, -⟩ := C07_degenerate_counts id geo ts ss minDt maxDt _ _ (stepsOf_id hpos hmin) (stepsOf_id hpos hmax)
    rcases h01 with rfl | rfl
    · exact ⟨[], h0, by simp; omega⟩
    · exact ⟨_, h1, by simp; omega⟩

/-- **C08, positive case.** With the default maximum and a minimum of at least one frame the intervals are distinct. -/
theorem C08_default_max_distinct_partial (geo : ℤ → ℤ → ℕ → ℕ → K) (ts ss : PyNum K) (hpos : 0 < ss.val * ts.val) (T : ℕ)
    (minDt : K) (hmin : ss.val * ts.val ≤ minDt) (hlt : ⌊minDt / (ss.val * ts.val)⌋ < T) (nSteps : ℕ) :
    ∃ l, initTimeIntervals id geo T ts ss (some minDt) none nSteps "linear" = .ok l ∧ l.Nodup := by
  have hm0 : 0 ≤ minDt := hpos.le.trans hmin
  have hm1 : 1 ≤ ⌊minDt / (ss.val * ts.val)⌋ := by rw [Int.le_floor]; push_cast; rwa [le_div_iff₀ hpos, one_mul]
  set d := ss.val * ts.val with hd
  set m := ⌊minDt / d⌋ with hm
  have hmax : (PyNum.mul id (PyNum.int (T : ℤ)) (PyNum.mul id ss ts)).val = (T : K) * d := by
    rw [PyNum.val_mul_id, PyNum.val_mul_id]; simp [PyNum.val, hd]
  have hT : ⌊(T : K) * d / d⌋ = T := by rw [mul_div_cancel_right₀ _ hpos.ne']; simp
  unfold initTimeIntervals
  dsimp only [maxDtOf, minDtOf]
  rw [hmax, stepsOf_id hpos hm0]
  simp only [bind, Except.bind]
  rw [← hd, ← hm, if_neg (by omega)]
  set n := (if (nSteps : ℤ) > (T : ℤ) - m + 1 then (T : ℤ) - m + 1 else (nSteps : ℤ)) with hn
  have hn0 : 0 ≤ n := by rw [hn]; split_ifs <;> omega
  have hnle : n ≤ T - m + 1 := by rw [hn]; split_ifs <;> omega
  obtain ⟨l, hl, hiff⟩ := C08_distinct_iff_partial geo ts ss d hd hpos minDt (T * d) hm0 (by positivity) m T
    (by rw [← hm]; exact (max_eq_right hm1).symm) hT.symm hlt.le n.toNat
  rw [Int.toNat_of_nonneg hn0] at hl hiff
  exact ⟨l, hl, hiff.2 hnle⟩

/-- **C08 is violated**: ten frames one unit apart.  (1) With `max_dt=3` and the default `n_steps` the intervals are
`1,1,1,1,1,2,2,2,2,3`.  (2) With `min_dt=1/2` the clipped number of steps is 11 for the range 1..10. -/
theorem C08_violated :
    initTimeIntervals id (fun _ _ _ _ => (0 : ℚ)) 10 (.float 1) (.int 1) none (some 3) 100 "linear"
      = .ok [1, 1, 1, 1, 1, 2, 2, 2, 2, 3] ∧
    initTimeIntervals id (fun _ _ _ _ => (0 : ℚ)) 10 (.float 1) (.int 1) (some (1 / 2)) none 100 "linear"
      = .ok [1, 1, 2, 3, 4, 5, 6, 7, 8, 9, 10] := by
  constructor <;> decide +kernel

/-- **C09**, exact arithmetic: default interval bounds and enough steps give exactly `1, …, T`. -/
theorem C09_default_intervals (geo : ℤ → ℤ → ℕ → ℕ → K) (ts ss : PyNum K) (hpos : 0 < ss.val * ts.val) (T : ℕ) (hT : 2 ≤ T)
    (nSteps : ℤ) (hn : (T : ℤ) ≤ nSteps) :
    initTimeIntervals id geo T ts ss none none nSteps "linear" = .ok ((List.range T).map fun i : ℕ => (i : ℤ) + 1) := by
  have hd := hpos
  set d := ss.val * ts.val with hdd
  have hmax : (PyNum.mul id (PyNum.int (T : ℤ)) (PyNum.mul id ss ts)).val = (T : K) * d := by
    rw [PyNum.val_mul_id, PyNum.val_mul_id]; simp [PyNum.val, hdd]
  have hTd : ⌊(T : K) * d / d⌋ = T := by rw [mul_div_cancel_right₀ _ hpos.ne']; simp
  have h1 : stepsOf id ts ss d = .ok 1 := by rw [stepsOf_id hpos hpos.le, ← hdd, div_self hpos.ne']; simp
  unfold initTimeIntervals
  dsimp only [maxDtOf, minDtOf]
  rw [hmax, PyNum.val_mul_id, ← hdd, h1]
  simp only [bind, Except.bind]
  rw [if_neg (by omega)]
  have hnn : (if nSteps > (T : ℤ) - 1 + 1 then (T : ℤ) - 1 + 1 else nSteps) = (T : ℕ) := by split_ifs <;> omega
  rw [hnn]
  obtain ⟨l, hl, hlen, -, -, -, -, he⟩ := C07_linear_intervals geo ts ss d hdd hpos d (T * d) hpos.le (by positivity) 1 T
    (by rw [div_self hpos.ne']; simp) hTd.symm (by omega) T hT
  rw [hl]
  congr 1
  apply List.ext_getElem?
  intro i
  by_cases hi : i < T
  · rw [he i hi]
    have hT1 : ((T : K) - 1) ≠ 0 := by
      have : (2 : K) ≤ T := by exact_mod_cast hT
      have : (0 : K) < (T : K) - 1 := by linarith
      exact this.ne'
    simp only [List.getElem?_map, List.getElem?_range hi, Option.map_some, Option.some.injEq]
    push_cast
    rw [mul_div_assoc, div_self hT1, mul_one, show (1 : K) + (i : K) = ((i + 1 : ℤ) : K) by push_cast; ring, Int.floor_intCast]
  · rw [List.getElem?_eq_none (by omega), List.getElem?_eq_none (by simp; omega)]

example : initTimeIntervals id (fun _ _ _ _ => (0 : ℚ)) 4 (.float (1 / 10)) (.int 3) none none 100 "linear" = .ok [1, 2, 3, 4] :=
  (C09_default_intervals _ _ _ (by norm_num [PyNum.val]) 4 (by norm_num) 100 (by norm_num)).trans (by decide)

/-- **C09 under rounding** (binary64 included): with default bounds the longest interval is `T` or `T - 1`.  In the first case
the list runs from 1 to `T`; in the second case interval `T` is missing and some interval is listed twice. -/
theorem C09_default_intervals_rounded_partial (fl : K → K) (N : ℕ) (R : Rounding fl N) (geo : ℤ → ℤ → ℕ → ℕ → K)
    (ts ss : PyNum K) (hpos : 0 < (ss.mul fl ts).val) (T : ℕ) (hT : 2 ≤ T) (hTN : 4 * T < N)
    (nSteps : ℤ) (hn : (T : ℤ) ≤ nSteps) :
    ∃ l, initTimeIntervals fl geo T ts ss none none nSteps "linear" = .ok l ∧ l.length = T ∧ l[0]? = some 1 ∧
      l.Pairwise (· ≤ ·) ∧ (l[T - 1]? = some (T : ℤ) ∨ (l[T - 1]? = some ((T : ℤ) - 1) ∧ ¬ l.Nodup)) := by
  set d := (ss.mul fl ts).val with hd
  have hN0 : (0 : K) < N := by exact_mod_cast (by omega : 0 < N)
  have hTN' : (4 : K) * T < N := by exact_mod_cast hTN
  have hT0 : (0 : K) < T := by exact_mod_cast (by omega : 0 < T)
  have f1 : fl 1 = 1 := by simpa using R.int_exact 1 (by simp; omega)
  have h1 : stepsOf fl ts ss d = .ok 1 := by
    unfold stepsOf
    rw [← hd, if_neg hpos.ne', div_self hpos.ne', f1]
    simpa using pyInt_int (K := K) 1
  set M := (PyNum.mul fl (PyNum.int (T : ℤ)) (PyNum.mul fl ss ts)).val with hM
  have hMr : |M - T * d| * N ≤ T * d := by
    have hx := R.rel ((T : K) * d)
    rw [abs_of_pos (mul_pos hT0 hpos)] at hx
    cases h : PyNum.mul fl ss ts with
    | int z =>
      rw [hM, hd, h]
      have : (0 : K) < z := by rw [hd, h] at hpos; exact hpos
      simp only [PyNum.mul, PyNum.val]
      push_cast
      rw [sub_self, abs_zero, zero_mul]
      positivity
    | float z =>
      have : M = fl (T * d) := by rw [hM, hd, h]; simp [PyNum.mul, PyNum.val]
      rw [this]; exact hx
  have hb : ∃ b : ℤ, stepsOf fl ts ss M = .ok b ∧ (b = T ∨ b = T - 1) := by
    refine ⟨pyInt (fl (M / d)), ?_, ?_⟩
    · unfold stepsOf; rw [← hd, if_neg hpos.ne']
    · have a1 : |M / d - T| * N ≤ T := by
        have e : M / d - T = (M - T * d) / d := by field_simp
        rw [e, abs_div, abs_of_pos hpos, div_mul_eq_mul_div, div_le_iff₀ hpos]
        exact hMr
      have hq : |M / d - T| < 1 / 4 := by
        by_contra hc
        push Not at hc
        nlinarith
      have hq' := abs_lt.1 hq
      have a2 := R.rel (M / d)
      have hMd : 0 < M / d := by
        have : (2 : K) ≤ T := by exact_mod_cast hT
        linarith
      rw [abs_of_pos hMd] at a2
      have hq2 : |fl (M / d) - M / d| < 1 / 2 := by
        by_contra hc
        push Not at hc
        have h2T : (2 : K) ≤ T := by exact_mod_cast hT
        have := mul_le_mul_of_nonneg_right hc hN0.le
        linarith
      have hq2' := abs_lt.1 hq2
      have h2T : (2 : K) ≤ T := by exact_mod_cast hT
      rw [pyInt_nonneg (by linarith)]
      have l1 : (T : ℤ) - 1 ≤ ⌊fl (M / d)⌋ := by rw [Int.le_floor]; push_cast; linarith
      have l2 : ⌊fl (M / d)⌋ < (T : ℤ) + 1 := by rw [Int.floor_lt]; push_cast; linarith
      omega
  obtain ⟨b, hb, hbT⟩ := hb
  have hb1 : (1 : ℤ) ≤ b := by omega
  obtain ⟨l, hl, hlen, h0, hlast, hpw, hr⟩ := C07_linear_intervals_rounded fl N R geo ts ss d M 1 b h1 hb 1 rfl hb1
    (by simp; omega) (by rw [abs_le]; constructor <;> omega) (by omega) T hT (by omega)
  refine ⟨l, ?_, hlen, h0, hpw, ?_⟩
  · unfold initTimeIntervals
    dsimp only [maxDtOf, minDtOf]
    rw [← hd, h1, ← hM]
    simp only [bind, Except.bind]
    rw [if_neg (by omega)]
    have hnn : (if nSteps > (T : ℤ) - 1 + 1 then (T : ℤ) - 1 + 1 else nSteps) = (T : ℕ) := by split_ifs <;> omega
    rw [hnn, hl]
  · rcases hbT with h | h
    · left; rw [hlast, h]
    · right
      refine ⟨by rw [hlast, h], fun hnd => ?_⟩
      have := nodup_length_le hnd hr
      rw [hlen] at this
      omega

/-- **C09 is violated in binary64**: 29 displacement steps, `time_step=0.005`: the quotient
`29*0.005/0.005` rounds to just below 29, so interval 29 is never analysed and interval 1 appears twice. -/
theorem C09_violated_binary64 :
    initTimeIntervals fl64 (fun _ _ _ _ => 0) 29 (.float (fl64 (5 / 1000))) (.int 1) none none 100 "linear"
      = .ok [1, 1, 2, 3, 4, 5, 6, 7, 8, 9, 10, 11, 12, 13, 14, 15, 16, 17, 18, 19, 20, 21, 22, 23, 24, 25, 26, 27, 28] := by
  decide +kernel

/-- **C10**: logarithmic intervals for any interior points `geo` that lie between the end points. -/
theorem C10_logarithmic_intervals (fl : K → K) (geo : ℤ → ℤ → ℕ → ℕ → K) (ts ss : PyNum K) (minDt maxDt : K) (m b a : ℤ)
    (hm : stepsOf fl ts ss minDt = .ok m) (hb : stepsOf fl ts ss maxDt = .ok b) (ha : a = if m = 0 then 1 else m)
    (h1 : 1 ≤ a) (hab : a ≤ b) (n : ℕ) (hn : 1 ≤ n) (hgeo : ∀ i < n, (a : K) ≤ geo a b n i ∧ geo a b n i ≤ b) :
    ∃ l, getTimeIntervals fl geo ts ss minDt maxDt n "logarithmic" = .ok l ∧ l.Pairwise (· < ·) ∧ l.length ≤ n ∧
      (∀ τ ∈ l, a ≤ τ ∧ τ ≤ b) ∧ a ∈ l ∧ (2 ≤ n → b ∈ l) := by
  set L : List ℤ := (List.range n).map fun i => if 1 < n ∧ i = n - 1 then b else if i = 0 then a else pyInt (geo a b n i) with hL
  refine ⟨npUnique L, ?_, ?_, ?_, ?_, ?_, ?_⟩
  · unfold getTimeIntervals
    rw [hm, hb]
    simp only [bind, Except.bind]
    rw [if_neg (show ¬ "logarithmic" = "linear" by decide), if_pos trivial, ← ha, geomspaceInt, if_neg (by omega), if_neg (by omega)]
    rfl
  · exact Finset.sortedLT_sort _ |>.pairwise
  · unfold npUnique
    rw [Finset.length_sort]
    calc L.toFinset.card ≤ L.length := List.toFinset_card_le L
      _ = n := by simp [hL]
  · intro τ hτ
    unfold npUnique at hτ
    rw [Finset.mem_sort, List.mem_toFinset, hL, List.mem_map] at hτ
    obtain ⟨i, hi, rfl⟩ := hτ
    rw [List.mem_range] at hi
    split_ifs with c1 c2
    · exact ⟨hab, le_rfl⟩
    · exact ⟨le_rfl, hab⟩
    · obtain ⟨g1, g2⟩ := hgeo i hi
      have ha0 : (0 : K) ≤ a := by exact_mod_cast (by omega : (0 : ℤ) ≤ a)
      rw [pyInt_nonneg (ha0.trans g1)]
      exact ⟨Int.le_floor.2 g1, by exact_mod_cast (Int.floor_le _).trans g2⟩
  · unfold npUnique
    rw [Finset.mem_sort, List.mem_toFinset, hL, List.mem_map]
    exact ⟨0, by simp; omega, by rw [if_neg (by omega), if_pos rfl]⟩
  · intro h2
    unfold npUnique
    rw [Finset.mem_sort, List.mem_toFinset, hL, List.mem_map]
    exact ⟨n - 1, by simp; omega, by rw [if_pos ⟨by omega, rfl⟩]⟩

/-- numpy's formula stays between the end points. -/
theorem geoReal_between (a b : ℤ) (n i : ℕ) (h1 : 1 ≤ a) (hab : a ≤ b) (hi : i < n) : (a : ℝ) ≤ geoReal a b n i ∧ geoReal a b n i ≤ b := by
  have ha0 : (0 : ℝ) < a := by exact_mod_cast (by omega : (0 : ℤ) < a)
  have hab' : (a : ℝ) ≤ b := by exact_mod_cast hab
  have hr : (1 : ℝ) ≤ (b : ℝ) / a := by rwa [le_div_iff₀ ha0, one_mul]
  have hi' : (i : ℝ) ≤ (n : ℝ) - 1 := by
    have : ((i + 1 : ℕ) : ℝ) ≤ n := by exact_mod_cast hi
    push_cast at this; linarith
  have hn0 : (0 : ℝ) ≤ (n : ℝ) - 1 := le_trans (by positivity) hi'
  have he0 : 0 ≤ (i : ℝ) / ((n : ℝ) - 1) := div_nonneg (by positivity) hn0
  have he1 : (i : ℝ) / ((n : ℝ) - 1) ≤ 1 := div_le_one_of_le₀ hi' hn0
  unfold geoReal
  constructor
  · have := Real.one_le_rpow hr he0
    nlinarith
  · have h2 : ((b : ℝ) / a) ^ ((i : ℝ) / ((n : ℝ) - 1)) ≤ ((b : ℝ) / a) ^ (1 : ℝ) := Real.rpow_le_rpow_of_exponent_le hr he1
    rw [Real.rpow_one] at h2
    calc (a : ℝ) * _ ≤ a * (b / a) := by gcongr
      _ = b := by field_simp

/-- **C10** with numpy's formula `a (b/a)^(i/(n-1))` over the reals: no assumption on the interior points is left. -/
theorem C10_logarithmic_intervals_real (fl : ℝ → ℝ) (ts ss : PyNum ℝ) (minDt maxDt : ℝ) (m b a : ℤ)
    (hm : stepsOf fl ts ss minDt = .ok m) (hb : stepsOf fl ts ss maxDt = .ok b) (ha : a = if m = 0 then 1 else m)
    (h1 : 1 ≤ a) (hab : a ≤ b) (n : ℕ) (hn : 1 ≤ n) :
    ∃ l, getTimeIntervals fl geoReal ts ss minDt maxDt n "logarithmic" = .ok l ∧ l.Pairwise (· < ·) ∧ l.length ≤ n ∧
      (∀ τ ∈ l, a ≤ τ ∧ τ ≤ b) ∧ a ∈ l ∧ (2 ≤ n → b ∈ l) :=
  C10_logarithmic_intervals fl geoReal ts ss minDt maxDt m b a hm hb ha h1 hab n hn fun i hi => geoReal_between a b n i h1 hab hi

/-- **C10**: only the two documented spacings are accepted. -/
theorem C10_other_spacing (fl : K → K) (geo : ℤ → ℤ → ℕ → ℕ → K) (ts ss : PyNum K) (minDt maxDt : K) (n m b : ℤ)
    (hm : stepsOf fl ts ss minDt = .ok m) (hb : stepsOf fl ts ss maxDt = .ok b) (s : String) (h1 : s ≠ "linear")
    (h2 : s ≠ "logarithmic") : getTimeIntervals fl geo ts ss minDt maxDt n s = .error .valueError := by
  unfold getTimeIntervals
  rw [hm, hb]
  simp only [bind, Except.bind]
  rw [if_neg h1, if_neg h2]

example : ∃ l, getTimeIntervals id (fun _ _ _ i => (2 : ℚ) ^ i) (.float 1) (.int 1) 1 16 5 "logarithmic" = .ok l ∧
    l.Pairwise (· < ·) ∧ l.length ≤ 5 ∧ (∀ τ ∈ l, 1 ≤ τ ∧ τ ≤ 16) ∧ 1 ∈ l ∧ (2 ≤ 5 → 16 ∈ l) :=
  C10_logarithmic_intervals id _ _ _ 1 16 1 16 1 (by decide +kernel) (by decide +kernel) rfl (by norm_num) (by norm_num) 5
    (by norm_num) (by intro i hi; interval_cases i <;> norm_num)

/-- **C73**, exact arithmetic: bounds that are whole multiples of the frame time are hit exactly. -/
theorem C73_whole_multiples (ts ss : PyNum K) (hpos : 0 < ss.val * ts.val) (m : ℕ) :
    stepsOf id ts ss ((m : K) * (ss.val * ts.val)) = .ok (m : ℤ) := by
  rw [stepsOf_id hpos (by positivity), mul_div_cancel_right₀ _ hpos.ne']
  simp

/-- **C73**, the analysed range for `min_dt = m` frames and `max_dt = M` frames starts at `m` and ends at `M`. -/
theorem C73_range (geo : ℤ → ℤ → ℕ → ℕ → K) (ts ss : PyNum K) (hpos : 0 < ss.val * ts.val) (m M : ℕ) (h1 : 1 ≤ m)
    (hmM : m ≤ M) (n : ℕ) (hn : 2 ≤ n) :
    ∃ l, getTimeIntervals id geo ts ss (m * (ss.val * ts.val)) (M * (ss.val * ts.val)) n "linear" = .ok l ∧
      l[0]? = some (m : ℤ) ∧ l[n - 1]? = some (M : ℤ) := by
  have e : ∀ k : ℕ, ⌊(k : K) * (ss.val * ts.val) / (ss.val * ts.val)⌋ = k := by
    intro k; rw [mul_div_cancel_right₀ _ hpos.ne']; simp
  obtain ⟨l, hl, -, h0, hlast, -⟩ := C07_linear_intervals geo ts ss _ rfl hpos (m * (ss.val * ts.val)) (M * (ss.val * ts.val))
    (by positivity) (by positivity) m M (by rw [e]; omega) (e M).symm (by omega) n hn
  exact ⟨l, hl, h0, hlast⟩

/-- **C73 is violated in binary64**: `min_dt=0.3` with `time_step=0.1` starts at 2 frames, not 3. -/
theorem C73_violated_binary64 :
    stepsOf fl64 (.float (fl64 (1 / 10))) (.int 1) (fl64 (3 / 10)) = .ok 2 ∧
    getTimeIntervals fl64 (fun _ _ _ _ => 0) (.float (fl64 (1 / 10))) (.int 1) (fl64 (3 / 10)) 1 3 "linear" = .ok [2, 6, 10] := by
  constructor <;> decide +kernel

/-! ### The remaining theorems for concrete input -/

/-- `C07_degenerate_counts`: one, none and a negative number of intervals between 4 and 20 for frames 2 apart. -/
example : getTimeIntervals id (fun _ _ _ _ => (0 : ℚ)) (.float (1 / 2)) (.int 4) 4 20 1 "linear" = .ok [2] ∧
    getTimeIntervals id (fun _ _ _ _ => (0 : ℚ)) (.float (1 / 2)) (.int 4) 4 20 (-1) "linear" = .error .valueError := by
  obtain ⟨h1, -, h3⟩ := C07_degenerate_counts id (fun _ _ _ _ => (0 : ℚ)) (.float (1 / 2)) (.int 4) 4 20 2 10 (by decide +kernel) (by decide +kernel)
  exact ⟨h1, h3 _ (by decide)⟩

/-- `C08_distinct_iff_partial`: between 2 and 10 frames, nine intervals are distinct and ten are not. -/
example : (∃ l, getTimeIntervals id (fun _ _ _ _ => (0 : ℚ)) (.float (1 / 2)) (.int 4) 4 20 9 "linear" = .ok l ∧ l.Nodup) ∧
    ∃ l, getTimeIntervals id (fun _ _ _ _ => (0 : ℚ)) (.float (1 / 2)) (.int 4) 4 20 10 "linear" = .ok l ∧ ¬ l.Nodup := by
  have h := C08_distinct_iff_partial (fun _ _ _ _ => (0 : ℚ)) (.float (1 / 2)) (.int 4) 2 (by norm_num [PyNum.val]) (by norm_num) 4 20
    (by norm_num) (by norm_num) 2 10 (by norm_num) (by norm_num) (by norm_num)
  obtain ⟨l, hl, hi⟩ := h 9
  obtain ⟨l', hl', hi'⟩ := h 10
  exact ⟨⟨l, hl, hi.2 (by norm_num)⟩, l', hl', fun hn => absurd (hi'.1 hn) (by norm_num)⟩

/-- `C08_default_max_distinct_partial`: from 4 up to the default maximum for ten frames 2 apart. -/
example : ∃ l, initTimeIntervals id (fun _ _ _ _ => (0 : ℚ)) 10 (.float (1 / 2)) (.int 4) (some 4) none 100 "linear" = .ok l ∧ l.Nodup :=
  C08_default_max_distinct_partial _ _ _ (by norm_num [PyNum.val]) 10 4 (by norm_num [PyNum.val]) (by norm_num [PyNum.val]) 100

/-- `C09_default_intervals_rounded_partial` in double precision. -/
example : ∃ l, initTimeIntervals fl64 (fun _ _ _ _ => 0) 50 (.float (fl64 (1 / 10))) (.int 3) none none 100 "linear" = .ok l ∧ l.length = 50 := by
  obtain ⟨l, h, h1, -⟩ := C09_default_intervals_rounded_partial fl64 _ rounding_fl64 (fun _ _ _ _ => 0) (.float (fl64 (1 / 10))) (.int 3)
    (by decide +kernel) 50 (by norm_num) (by norm_num) 100 (by norm_num)
  exact ⟨l, h, h1⟩

/-- `C10_logarithmic_intervals_real`: from 2 to 10 frames in four logarithmic steps. -/
example : ∃ l, getTimeIntervals id geoReal (.float (1 / 2)) (.int 4) 4 20 (4 : ℕ) "logarithmic" = .ok l ∧ l.Pairwise (· < ·) ∧ l.length ≤ 4 ∧
    (∀ τ ∈ l, (2 : ℤ) ≤ τ ∧ τ ≤ 10) ∧ (2 : ℤ) ∈ l ∧ (2 ≤ 4 → (10 : ℤ) ∈ l) := by
  have h2 : (PyNum.int 4 : PyNum ℝ).val * (PyNum.float (1 / 2) : PyNum ℝ).val = 2 := by norm_num [PyNum.val]
  have hm := C73_whole_multiples (.float (1 / 2) : PyNum ℝ) (.int 4) (by rw [h2]; norm_num) 2
  have hb := C73_whole_multiples (.float (1 / 2) : PyNum ℝ) (.int 4) (by rw [h2]; norm_num) 10
  rw [h2] at hm hb
  norm_num at hm hb
  exact C10_logarithmic_intervals_real id (.float (1 / 2)) (.int 4) 4 20 2 10 2 (by simpa using hm) (by simpa using hb) (by norm_num)
    (by norm_num) (by norm_num) 4 (by norm_num)

/-- `C73_range`: bounds 4 and 20 are 2 and 10 frames. -/
example : ∃ l, getTimeIntervals id (fun _ _ _ _ => (0 : ℚ)) (.float (1 / 2)) (.int 4) 4 20 (3 : ℕ) "linear" = .ok l ∧ l[0]? = some 2 ∧ l[2]? = some 10 := by
  have h := C73_range (fun _ _ _ _ => (0 : ℚ)) (.float (1 / 2)) (.int 4) (by norm_num [PyNum.val]) 2 10 (by norm_num) (by norm_num) 3 (by norm_num)
  norm_num [PyNum.val] at h
  exact h

end Kinisi
