import Verif.Lemmas.GLS
import Verif.Lemmas.Float
import Verif.Model.GetDisps

/-!
# C90: rounding of the reported times and the start of the fit
-/

set_option linter.unusedSectionVars false
set_option linter.unusedVariables false

namespace Kinisi
open Spec
variable {K : Type} [Field K] [LinearOrder K] [IsStrictOrderedRing K] [FloorRing K]

/-- One rounded multiplication of Python numbers. -/
theorem mul_val_error {fl : K → K} {N : ℕ} (h : Rounding fl N) (a b : PyNum K) :
    |(a.mul fl b).val - a.val * b.val| * N ≤ |a.val * b.val| := by
  cases a with
  | int a =>
    cases b with
    | int b => simp [PyNum.mul, PyNum.val]; positivity
    | float b => exact h.rel _
  | float a => cases b <;> exact h.rel _

/-- **C90, times.** Each entry of `delta_t` is the number of frames times `time_step` times `step_skip` up to two roundings. -/
theorem C90_times {fl : K → K} {N : ℕ} (hN : 0 < N) (h : Rounding fl N) (ts ss : PyNum K) (τ : ℤ) :
    |(deltaTOf fl ts ss τ).val - τ * ts.val * ss.val| ≤ (2 / N + 1 / (N : K) ^ 2) * |τ * ts.val * ss.val| := by
  have hN' : (0 : K) < N := by exact_mod_cast hN
  have h1 := mul_val_error h (PyNum.int τ) ts
  have h2 := mul_val_error h ((PyNum.int τ).mul fl ts) ss
  set y := ((PyNum.int τ).mul fl ts).val with hy
  have e1 : |y - τ * ts.val| ≤ |τ * ts.val| / N := by rw [le_div_iff₀ hN']; exact h1
  have e2 : |(deltaTOf fl ts ss τ).val - y * ss.val| ≤ |y * ss.val| / N := by rw [le_div_iff₀ hN']; exact h2
  have e3 : |y * ss.val - τ * ts.val * ss.val| ≤ |τ * ts.val * ss.val| / N := by
    rw [← sub_mul, abs_mul, abs_mul _ ss.val, div_eq_mul_inv, mul_right_comm, ← div_eq_mul_inv]
    exact mul_le_mul_of_nonneg_right e1 (abs_nonneg _)
  have e4 : |y * ss.val| ≤ |τ * ts.val * ss.val| + |τ * ts.val * ss.val| / N := by
    have := abs_add_le (y * ss.val - τ * ts.val * ss.val) (τ * ts.val * ss.val)
    rw [sub_add_cancel] at this
    linarith
  have e5 : |y * ss.val| / N ≤ (|τ * ts.val * ss.val| + |τ * ts.val * ss.val| / N) / N := by gcongr
  have e6 := abs_add_le ((deltaTOf fl ts ss τ).val - y * ss.val) (y * ss.val - τ * ts.val * ss.val)
  rw [sub_add_sub_cancel] at e6
  have e7 : (2 / N + 1 / (N : K) ^ 2) * |τ * ts.val * ss.val| =
      (|τ * ts.val * ss.val| + |τ * ts.val * ss.val| / N) / N + |τ * ts.val * ss.val| / N := by
    field_simp
    ring
  rw [e7]
  linarith

/-- **C90, start from a reported time.** Passing an entry of `dt` as `start_dt` starts the fit at exactly this entry. -/
theorem C90_from_dt (dt : List K) (hs : dt.Pairwise (· < ·)) (i : ℕ) (hi : i < dt.length) : diffRegime dt dt[i] = .ok i := by
  rw [diffRegime_ok_iff]
  exact ⟨hi, le_refl _, fun j hj => List.pairwise_iff_getElem.mp hs j i (by omega) hi hj⟩

/-- **C90, start in exact arithmetic.** With `start_dt` equal to `m` frames the fit starts at the first interval of at least `m` frames. -/
theorem C90_start_exact (ts ss : PyNum K) (hd : 0 < ts.val * ss.val) (taus : List ℤ) (m : ℤ) (r : ℕ)
    (h : diffRegime (taus.map fun τ => (deltaTOf id ts ss τ).val) (m * (ts.val * ss.val)) = .ok r) :
    ∃ hr : r < taus.length, m ≤ taus[r] ∧ ∀ j (hj : j < r), taus[j] < m := by
  have hx : ∀ τ : ℤ, (deltaTOf id ts ss τ).val = τ * (ts.val * ss.val) := by
    intro τ
    have h1 : ∀ a b : PyNum K, (a.mul id b).val = a.val * b.val := by
      intro a b
      cases a <;> cases b <;> simp [PyNum.mul, PyNum.val]
    unfold deltaTOf
    rw [h1, h1]
    simp only [PyNum.val]
    ring
  obtain ⟨hr, h1, h2⟩ := diffRegime_ok_iff.mp h
  rw [List.length_map] at hr
  refine ⟨hr, ?_, fun j hj => ?_⟩
  · rw [List.getElem_map, hx] at h1
    exact_mod_cast le_of_mul_le_mul_right h1 hd
  · have := h2 j hj
    rw [List.getElem_map, hx] at this
    exact_mod_cast lt_of_mul_lt_mul_right this hd.le

/-- **C90, start with rounding: what holds.** If `start_dt` is `m` frames up to two roundings, only the interval of `m` frames itself is in doubt: the first fitted interval is at least `m`
frames, and every interval before it is at most `m` frames. -/
theorem C90_start_rounded_partial {fl : K → K} {N : ℕ} (h : Rounding fl N) (ts ss : PyNum K) (hd : 0 < ts.val * ss.val) (taus : List ℤ) (hpos : ∀ τ ∈ taus, 0 < τ) (m : ℕ)
    (hN : 8 * (m + 1) < N) (start : K) (hst : |start - m * (ts.val * ss.val)| * N ≤ 2 * (m * (ts.val * ss.val))) (r : ℕ)
    (hr : diffRegime (taus.map fun τ => (deltaTOf fl ts ss τ).val) start = .ok r) :
    ∃ h : r < taus.length, (m : ℤ) ≤ taus[r] ∧ ∀ j (hj : j < r), taus[j] ≤ m := by
  have hN0 : 0 < N := by omega
  have hN' : (0 : K) < N := by exact_mod_cast hN0
  have hNm : (8 : K) * (m + 1) < N := by exact_mod_cast hN
  set d := ts.val * ss.val with hdd
  have hm0 : (0 : K) ≤ m := Nat.cast_nonneg m
  have hst' : |start - m * d| ≤ 2 * (m * d) / N := by rw [le_div_iff₀ hN']; exact hst
  have hx : ∀ τ : ℤ, 0 < τ → |(deltaTOf fl ts ss τ).val - τ * d| ≤ 3 * (τ * d) / N := by
    intro τ hτ
    have e := C90_times hN0 h ts ss τ
    have hp : (0 : K) < τ * ts.val * ss.val := by
      rw [mul_assoc]; exact mul_pos (by exact_mod_cast hτ) hd
    rw [abs_of_pos hp, mul_assoc, ← hdd] at e
    refine le_trans e ?_
    rw [mul_div_right_comm]
    have hp' : (0 : K) ≤ τ * d := mul_nonneg (by exact_mod_cast hτ.le) hd.le
    apply mul_le_mul_of_nonneg_right _ hp'
    have h1 : 1 / (N : K) ^ 2 ≤ 1 / N := by
      apply one_div_le_one_div_of_le hN'
      have : (1 : K) ≤ N := by exact_mod_cast hN0
      nlinarith
    have h2 : (3 : K) / N = 2 / N + 1 / N := by ring
    linarith
  have hlow : ∀ τ : ℤ, 0 < τ → (deltaTOf fl ts ss τ).val ≤ τ * d + 3 * (τ * d) / N := fun τ hτ => by
    have := (abs_le.mp (hx τ hτ)).2; linarith
  have hup : ∀ τ : ℤ, 0 < τ → τ * d - 3 * (τ * d) / N ≤ (deltaTOf fl ts ss τ).val := fun τ hτ => by
    have := (abs_le.mp (hx τ hτ)).1; linarith
  obtain ⟨hr0, h1, h2⟩ := diffRegime_ok_iff.mp hr
  rw [List.length_map] at hr0
  have s1 := (abs_le.mp hst').1
  have s2 := (abs_le.mp hst').2
  refine ⟨hr0, ?_, fun j hj => ?_⟩
  · by_contra hlt
    rw [List.getElem_map] at h1
    have hτ := hpos _ (List.getElem_mem hr0)
    generalize taus[r] = τ at h1 hlt hτ
    have hle : τ + 1 ≤ (m : ℤ) := by omega
    have hle' : (τ : K) + 1 ≤ m := by exact_mod_cast hle
    have hτ' : (0 : K) < τ := by exact_mod_cast hτ
    have e1 := hlow τ hτ
    have e2 : (m : K) * d - 2 * (m * d) / N ≤ τ * d + 3 * (τ * d) / N := by linarith
    have e3 : ((m : K) * d - 2 * (m * d) / N) * N ≤ (τ * d + 3 * (τ * d) / N) * N := mul_le_mul_of_nonneg_right e2 hN'.le
    have e4 : ((m : K) * d - 2 * (m * d) / N) * N = d * (m * N - 2 * m) := by field_simp
    have e5 : (τ * d + 3 * (τ * d) / N) * N = d * (τ * N + 3 * τ) := by field_simp
    rw [e4, e5] at e3
    have e6 := le_of_mul_le_mul_left e3 hd
    nlinarith
  · by_contra hlt
    have := h2 j hj
    rw [List.getElem_map] at this
    have hτ := hpos _ (List.getElem_mem (show j < taus.length by omega))
    generalize taus[j] = τ at this hlt hτ
    have hle : (m : ℤ) + 1 ≤ τ := by omega
    have hle' : (m : K) + 1 ≤ τ := by exact_mod_cast hle
    have e1 := hup τ hτ
    have e2 : (τ : K) * d - 3 * (τ * d) / N < m * d + 2 * (m * d) / N := by linarith
    have e3 : ((τ : K) * d - 3 * (τ * d) / N) * N < (m * d + 2 * (m * d) / N) * N := mul_lt_mul_of_pos_right e2 hN'
    have e4 : ((τ : K) * d - 3 * (τ * d) / N) * N = d * (τ * (N - 3)) := by field_simp
    have e5 : ((m : K) * d + 2 * (m * d) / N) * N = d * (m * N + 2 * m) := by field_simp
    rw [e4, e5] at e3
    have e6 := lt_of_mul_lt_mul_left e3 hd.le
    have e7 : ((m : K) + 1) * (N - 3) ≤ τ * (N - 3) := mul_le_mul_of_nonneg_right hle' (by linarith)
    nlinarith

/-- **C90 is violated in binary64.** Time steps of 0.001 with every 50th step stored, `start_dt=0.55` (11 frames): the reported time of 11 frames is below 0.55, and the fit starts at 12 frames. -/
theorem C90_violated_binary64 :
    (deltaTOf fl64 (.float (fl64 (1 / 1000))) (.int 50) 11).val < fl64 (55 / 100) ∧
    diffRegime ([10, 11, 12, 13].map fun τ => (deltaTOf fl64 (.float (fl64 (1 / 1000))) (.int 50) τ).val) (fl64 (55 / 100)) = .ok 2 := by
  constructor <;> decide +kernel

/-- The same times in exact arithmetic, and the hypotheses of the rounded statements `C90_times`, `C90_start_rounded_partial`. -/
example : diffRegime ([10, 11, 12, 13].map fun τ => (deltaTOf id (.float (1 / 1000 : ℚ)) (.int 50) τ).val) ((11 : ℤ) * ((PyNum.float (1 / 1000 : ℚ)).val * (PyNum.int 50).val)) = .ok 1 ∧
    |fl64 (55 / 100) - (11 : ℕ) * ((PyNum.float (fl64 (1 / 1000))).val * (PyNum.int 50 : PyNum ℚ).val)| * (2 ^ 53 : ℕ) ≤
      2 * ((11 : ℕ) * ((PyNum.float (fl64 (1 / 1000))).val * (PyNum.int 50 : PyNum ℚ).val)) := by
  constructor <;> decide +kernel

/-- `C90_from_dt`, `C90_start_exact` for these times. -/
example : diffRegime [1, 2, 4, (7 : ℚ)] 4 = .ok 2 ∧
    ∃ hr : 1 < [10, 11, 12, (13 : ℤ)].length, 11 ≤ [10, 11, 12, (13 : ℤ)][1] :=
  ⟨C90_from_dt [1, 2, 4, (7 : ℚ)] (by decide +kernel) 2 (by decide),
    (C90_start_exact (.float (1 / 1000 : ℚ)) (.int 50) (by decide +kernel) [10, 11, 12, 13] 11 1 (by decide +kernel)).imp fun _ h => h.1⟩

end Kinisi
