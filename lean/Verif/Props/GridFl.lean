import Verif.Lemmas.GridFl
import Verif.Lemmas.Float

/-!
# C133: linear time intervals in floating point arithmetic
-/

set_option linter.unusedSectionVars false

namespace Kinisi
open Spec
variable {K : Type} [Field K] [LinearOrder K] [IsStrictOrderedRing K] [FloorRing K]

/-- **C133** (missing: equality in the second case, which is false, `C133_violated`).  The intervals between `a` and `b` frames, under any
rounding of class `Rounding`: position `i` is the evenly spaced value `a + i (b - a) / (n - 1)` rounded down to a frame; the only
exception is a value that is a whole number of frames already, which may come out one frame too small. -/
theorem C133_intervals_partial (fl : K → K) (N : ℕ) (R : Rounding fl N) (geo : ℤ → ℤ → ℕ → ℕ → K) (ts ss : PyNum K)
    (minDt maxDt : K) (m b : ℤ) (hm : stepsOf fl ts ss minDt = .ok m) (hb : stepsOf fl ts ss maxDt = .ok b)
    (a : ℤ) (ha : a = if m = 0 then 1 else m) (ha0 : 0 ≤ a) (hab : a ≤ b) (n : ℕ) (hn : 2 ≤ n) (hN : 8 * b * ((n : ℤ) - 1) < N) :
    ∃ l, getTimeIntervals fl geo ts ss minDt maxDt n "linear" = .ok l ∧ l.length = n ∧ ∀ i < n,
      l[i]? = some ⌊(a : K) + (i : K) * ((b - a : ℤ) : K) / ((n : K) - 1)⌋ ∨
      ∃ z : ℤ, (z : K) = (a : K) + (i : K) * ((b - a : ℤ) : K) / ((n : K) - 1) ∧ l[i]? = some (z - 1) := by
  refine ⟨(List.range n).map (linEntry fl a b n), by rw [getTimeIntervals_linear hm hb, ← ha, linspaceInt_nat], by simp, ?_⟩
  intro i hi
  have hq : (0 : ℤ) < (n : ℤ) - 1 := by omega
  have hqK : ((n : K) - 1) = (((n : ℤ) - 1 : ℤ) : K) := by push_cast; ring
  have hq0 : (((n : ℤ) - 1 : ℤ) : K) ≠ 0 := by exact_mod_cast hq.ne'
  have hx : (a : K) + (i : K) * ((b - a : ℤ) : K) / ((n : K) - 1)
      = ((a * ((n : ℤ) - 1) + i * (b - a) : ℤ) : K) / (((n : ℤ) - 1 : ℤ) : K) := by
    rw [hqK, eq_div_iff hq0, add_mul, div_mul_cancel₀ _ hq0]
    push_cast
    ring
  have hfl : ⌊(a : K) + (i : K) * ((b - a : ℤ) : K) / ((n : K) - 1)⌋ = (a * ((n : ℤ) - 1) + i * (b - a)) / ((n : ℤ) - 1) := by
    rw [hx, Int.floor_eq_iff]
    have hqp : (0 : K) < (((n : ℤ) - 1 : ℤ) : K) := by exact_mod_cast hq
    constructor
    · rw [le_div_iff₀ hqp]
      exact_mod_cast Int.ediv_mul_le _ hq.ne'
    · rw [div_lt_iff₀ hqp]
      exact_mod_cast Int.lt_ediv_add_one_mul_self _ hq
  have hget : ((List.range n).map (linEntry fl a b n))[i]? = some (linEntry fl a b n i) := by simp [hi]
  rw [hget, hfl]
  rcases linEntry_near R ha0 hab hn hi hN rfl with h | ⟨hd, h⟩
  · exact .inl (by rw [h])
  · refine .inr ⟨_, ?_, by rw [h]⟩
    rw [hx]
    have hd' : ((n : ℤ) - 1) ∣ a * ((n : ℤ) - 1) + i * (b - a) := Int.dvd_add (Dvd.intro_left a rfl) hd
    rw [Int.cast_div hd' hq0]

/-- **C133** the intervals are different from each other and in order, if there are enough frames between the bounds. -/
theorem C133_distinct (fl : K → K) (N : ℕ) (R : Rounding fl N) (geo : ℤ → ℤ → ℕ → ℕ → K) (ts ss : PyNum K)
    (minDt maxDt : K) (m b : ℤ) (hm : stepsOf fl ts ss minDt = .ok m) (hb : stepsOf fl ts ss maxDt = .ok b)
    (a : ℤ) (ha : a = if m = 0 then 1 else m) (ha0 : 0 ≤ a) (hab : a ≤ b) (n : ℕ) (hroom : (n : ℤ) ≤ b - a + 1)
    (hN : 8 * b * ((n : ℤ) - 1) < N) :
    ∃ l, getTimeIntervals fl geo ts ss minDt maxDt n "linear" = .ok l ∧ l.length = n ∧ l.Pairwise (· < ·) := by
  refine ⟨(List.range n).map (linEntry fl a b n), by rw [getTimeIntervals_linear hm hb, ← ha, linspaceInt_nat], by simp, ?_⟩
  rw [List.pairwise_iff_getElem]
  intro i j hi hj hij
  simp only [List.length_map, List.length_range] at hi hj
  simp only [List.getElem_map, List.getElem_range]
  have step : ∀ d, i + d + 1 < n → linEntry fl a b n i < linEntry fl a b n (i + d + 1) := by
    intro d
    induction d with
    | zero => exact fun h => linEntry_lt_succ R ha0 hab (by omega) h hN hroom
    | succ d ih =>
      intro h
      exact (ih (by omega)).trans (linEntry_lt_succ R ha0 hab (by omega) (i := i + d + 1) h hN hroom)
  obtain ⟨d, rfl⟩ : ∃ d, j = i + d + 1 := ⟨j - i - 1, by omega⟩
  exact step d hj

/-- **C133** for a trajectory of `T` steps: if the bounds come out as `m ≥ 1` and `T` frames, the intervals are strictly increasing
whatever number of them is requested. -/
theorem C133_trajectory (fl : K → K) (N : ℕ) (R : Rounding fl N) (geo : ℤ → ℤ → ℕ → ℕ → K) (T : ℕ) (ts ss : PyNum K)
    (minDt maxDt : Option K) (m : ℤ) (hm : stepsOf fl ts ss (minDtOf fl ts ss minDt) = .ok m)
    (hb : stepsOf fl ts ss (maxDtOf fl T ts ss maxDt) = .ok T) (hm1 : 1 ≤ m) (hmT : m < T) (hN : 8 * T * T < N) (n : ℕ) :
    ∃ l, initTimeIntervals fl geo T ts ss minDt maxDt n "linear" = .ok l ∧ l.Pairwise (· < ·) ∧
      l.length = min n (T - m.toNat + 1) := by
  obtain ⟨k, hk⟩ : ∃ k : ℕ, m = k := ⟨m.toNat, by omega⟩
  subst hk
  have hif : (if (n : ℤ) > ((T : ℤ) - k) + 1 then ((T : ℤ) - k) + 1 else n) = ((min n (T - k + 1) : ℕ) : ℤ) := by
    split_ifs <;> omega
  obtain ⟨l, hl, hlen, hp⟩ := C133_distinct fl N R geo ts ss _ _ _ _ hm hb (k : ℤ) (by rw [if_neg (by omega)]) (by omega) (by omega)
    (min n (T - k + 1)) (by omega) (by
      have h1 : ((min n (T - k + 1) : ℕ) : ℤ) - 1 ≤ T := by omega
      have h2 : (8 * (T : ℤ) * T) < N := by exact_mod_cast hN
      have h3 : (0 : ℤ) ≤ 8 * T := by positivity
      nlinarith)
  refine ⟨l, ?_, hp, by simpa using hlen⟩
  unfold initTimeIntervals
  dsimp only
  rw [hm]
  simp only [bind, Except.bind]
  rw [if_neg (by omega), hif]
  exact hl

/-- **C133 is violated**: 31 steps of 1 fs and 23 intervals, in binary64.  The middle of the range `1, …, 31` is 16, and the interval
at position 11 is 15.  With the default number of 100 intervals this happens for 109 steps. -/
theorem C133_violated :
    (∃ l, initTimeIntervals fl64 (fun _ _ _ _ => 0) 31 (.float 1) (.int 1) none none 23 "linear" = .ok l ∧ l[11]? = some 15) ∧
    (1 : ℚ) + 11 * (31 - 1) / (23 - 1) = 16 ∧
    (∃ l, initTimeIntervals id (fun _ _ _ _ => (0 : ℚ)) 31 (.float 1) (.int 1) none none 23 "linear" = .ok l ∧ l[11]? = some 16) ∧
    (∃ l, initTimeIntervals fl64 (fun _ _ _ _ => 0) 109 (.float 1) (.int 1) none none 100 "linear" = .ok l ∧ l[55]? = some 60) ∧
    (1 : ℚ) + 55 * (109 - 1) / (100 - 1) = 61 := by
  refine ⟨?_, by norm_num, ?_, ?_, by norm_num⟩
  · have h : ((initTimeIntervals fl64 (fun _ _ _ _ => 0) 31 (.float 1) (.int 1) none none 23 "linear").toOption.bind
        fun l => l[11]?) = some 15 := by decide +kernel
    cases e : initTimeIntervals fl64 (fun _ _ _ _ => 0) 31 (.float 1) (.int 1) none none 23 "linear" with
    | error x => rw [e] at h; cases h
    | ok l => rw [e] at h; exact ⟨l, rfl, h⟩
  · have h : ((initTimeIntervals id (fun _ _ _ _ => (0 : ℚ)) 31 (.float 1) (.int 1) none none 23 "linear").toOption.bind
        fun l => l[11]?) = some 16 := by decide +kernel
    cases e : initTimeIntervals id (fun _ _ _ _ => (0 : ℚ)) 31 (.float 1) (.int 1) none none 23 "linear" with
    | error x => rw [e] at h; cases h
    | ok l => rw [e] at h; exact ⟨l, rfl, h⟩
  · have h : ((initTimeIntervals fl64 (fun _ _ _ _ => 0) 109 (.float 1) (.int 1) none none 100 "linear").toOption.bind
        fun l => l[55]?) = some 60 := by decide +kernel
    cases e : initTimeIntervals fl64 (fun _ _ _ _ => 0) 109 (.float 1) (.int 1) none none 100 "linear" with
    | error x => rw [e] at h; cases h
    | ok l => rw [e] at h; exact ⟨l, rfl, h⟩

/-! ### Concrete input -/

/-- `C133_intervals_partial` in binary64 for 200 intervals between 2 and 100001 frames of 0.1 fs. -/
example : ∃ l, getTimeIntervals fl64 (fun _ _ _ _ => 0) (.float (fl64 (1 / 10))) (.int 1) (fl64 (1 / 5)) (fl64 (100001 / 10)) 200 "linear" = .ok l ∧
    l.length = 200 ∧ ∀ i : ℕ, i < 200 → l[i]? = some ⌊((2 : ℤ) : ℚ) + (i : ℚ) * ((100001 - 2 : ℤ) : ℚ) / (((200 : ℕ) : ℚ) - 1)⌋ ∨
      ∃ z : ℤ, (z : ℚ) = ((2 : ℤ) : ℚ) + (i : ℚ) * ((100001 - 2 : ℤ) : ℚ) / (((200 : ℕ) : ℚ) - 1) ∧ l[i]? = some (z - 1) :=
  C133_intervals_partial fl64 _ rounding_fl64 _ _ _ _ _ 2 100001 (by decide +kernel) (by decide +kernel) 2 (by decide) (by decide) (by decide)
    200 (by decide) (by norm_num)

/-- `C133_distinct`: 200 different intervals for the same input. -/
example : ∃ l, getTimeIntervals fl64 (fun _ _ _ _ => 0) (.float (fl64 (1 / 10))) (.int 1) (fl64 (1 / 5)) (fl64 (100001 / 10)) 200 "linear" = .ok l ∧
    l.length = 200 ∧ l.Pairwise (· < ·) :=
  C133_distinct fl64 _ rounding_fl64 _ _ _ _ _ 2 100001 (by decide +kernel) (by decide +kernel) 2 (by decide) (by decide) (by decide)
    200 (by decide) (by norm_num)

/-- `C133_trajectory`: 1000 frames of 2 fs, every fifth stored, default bounds and number of intervals. -/
example : ∃ l, initTimeIntervals fl64 (fun _ _ _ _ => 0) 1000 (.float 2) (.int 5) none none 100 "linear" = .ok l ∧ l.Pairwise (· < ·) ∧
    l.length = min 100 (1000 - (1 : ℤ).toNat + 1) :=
  C133_trajectory fl64 _ rounding_fl64 _ 1000 _ _ none none 1 (by decide +kernel) (by decide +kernel) (by decide) (by decide) (by norm_num) 100

end Kinisi
