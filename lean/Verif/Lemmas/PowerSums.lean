import Mathlib.Algebra.BigOperators.Intervals
import Mathlib.Algebra.Order.BigOperators.Group.Finset
import Mathlib.Data.Real.Basic
import Mathlib.Tactic.Linarith
import Mathlib.Tactic.Ring
import Mathlib.Tactic.Positivity
import Mathlib.Tactic.FieldSimp
import Mathlib.Tactic.LinearCombination
import Mathlib.Algebra.BigOperators.Ring.Finset

/-!
# Sums of fifth and sixth powers
-/

namespace Kinisi

theorem sum_fifth (n : ℕ) : 12 * ∑ i ∈ Finset.range n, ((i : ℝ) + 1) ^ 5 = (n : ℝ) ^ 2 * (n + 1) ^ 2 * (2 * n ^ 2 + 2 * n - 1) := by
  induction n with
  | zero => simp
  | succ n ih =>
    rw [Finset.sum_range_succ, mul_add, ih]
    push_cast
    ring

theorem sum_sixth (n : ℕ) : 42 * ∑ i ∈ Finset.range n, ((i : ℝ) + 1) ^ 6 = (n : ℝ) * (n + 1) * (2 * n + 1) * (3 * n ^ 4 + 6 * n ^ 3 - 3 * n + 1) := by
  induction n with
  | zero => simp
  | succ n ih =>
    rw [Finset.sum_range_succ, mul_add, ih]
    push_cast
    ring

/-- The terms of the comparison of fifth and sixth powers. -/
theorem sum_power_gap (F : ℕ) : (0 : ℝ) ≤ ∑ i ∈ Finset.range F, ((i : ℝ) + 1) ^ 5 * (7 * ((i : ℝ) + 1) - 6 * (F : ℝ)) := by
  have e : ∑ i ∈ Finset.range F, ((i : ℝ) + 1) ^ 5 * (7 * ((i : ℝ) + 1) - 6 * (F : ℝ)) = 7 * ∑ i ∈ Finset.range F, ((i : ℝ) + 1) ^ 6 - 6 * (F : ℝ) * ∑ i ∈ Finset.range F, ((i : ℝ) + 1) ^ 5 := by
    rw [Finset.mul_sum, Finset.mul_sum, ← Finset.sum_sub_distrib]
    exact Finset.sum_congr rfl fun i _ => by ring
  have h5 := sum_fifth F
  have h6 := sum_sixth F
  rcases Nat.eq_zero_or_pos F with rfl | hF
  · simp
  have hF1 : (1 : ℝ) ≤ F := by exact_mod_cast hF
  rw [e]
  have h : 7 * ∑ i ∈ Finset.range F, ((i : ℝ) + 1) ^ 6 - 6 * (F : ℝ) * ∑ i ∈ Finset.range F, ((i : ℝ) + 1) ^ 5 = (F : ℝ) * (F + 1) / 6 * (3 * F ^ 4 + 3 * F ^ 3 - 3 * F ^ 2 - F + 1) := by
    linear_combination h6 / 6 - F * h5 / 2
  rw [h]
  have a : (F : ℝ) ^ 2 ≤ F ^ 4 := pow_le_pow_right₀ hF1 (by norm_num)
  have b : (F : ℝ) ≤ F ^ 3 := by simpa using pow_le_pow_right₀ hF1 (show 1 ≤ 3 by norm_num)
  refine mul_nonneg (by positivity) ?_
  nlinarith

/-- The mean of `1 / τ` with the weights `τ ^ 6` is at most `7 / (6 F)`, also if only the intervals from some one on count. -/
theorem fifth_le_sixth {r F : ℕ} (hr : r ≤ F) : 6 * (F : ℝ) * ∑ i ∈ Finset.range (F - r), ((r + i : ℕ) + 1 : ℝ) ^ 5 ≤ 7 * ∑ i ∈ Finset.range (F - r), ((r + i : ℕ) + 1 : ℝ) ^ 6 := by
  suffices h : (0 : ℝ) ≤ ∑ i ∈ Finset.range (F - r), ((r + i : ℕ) + 1 : ℝ) ^ 5 * (7 * ((r + i : ℕ) + 1 : ℝ) - 6 * (F : ℝ)) by
    have e : ∑ i ∈ Finset.range (F - r), ((r + i : ℕ) + 1 : ℝ) ^ 5 * (7 * ((r + i : ℕ) + 1 : ℝ) - 6 * (F : ℝ)) =
        7 * ∑ i ∈ Finset.range (F - r), ((r + i : ℕ) + 1 : ℝ) ^ 6 - 6 * (F : ℝ) * ∑ i ∈ Finset.range (F - r), ((r + i : ℕ) + 1 : ℝ) ^ 5 := by
      rw [Finset.mul_sum, Finset.mul_sum, ← Finset.sum_sub_distrib]
      exact Finset.sum_congr rfl fun i _ => by ring
    linarith
  rcases le_total (6 * (F : ℝ)) (7 * (r : ℝ)) with h | h
  · refine Finset.sum_nonneg fun i _ => mul_nonneg (by positivity) ?_
    push_cast
    have : (0 : ℝ) ≤ i := Nat.cast_nonneg _
    linarith
  · have g := sum_power_gap F
    have s : ∑ i ∈ Finset.range F, ((i : ℝ) + 1) ^ 5 * (7 * ((i : ℝ) + 1) - 6 * (F : ℝ)) = ∑ i ∈ Finset.range r, ((i : ℝ) + 1) ^ 5 * (7 * ((i : ℝ) + 1) - 6 * (F : ℝ)) +
        ∑ i ∈ Finset.range (F - r), ((r + i : ℕ) + 1 : ℝ) ^ 5 * (7 * ((r + i : ℕ) + 1 : ℝ) - 6 * (F : ℝ)) := by
      have := Finset.sum_range_add (fun i : ℕ => ((i : ℝ) + 1) ^ 5 * (7 * ((i : ℝ) + 1) - 6 * (F : ℝ))) r (F - r)
      rw [Nat.add_sub_cancel' hr] at this
      exact this
    have p : ∑ i ∈ Finset.range r, ((i : ℝ) + 1) ^ 5 * (7 * ((i : ℝ) + 1) - 6 * (F : ℝ)) ≤ 0 := by
      refine Finset.sum_nonpos fun i hi => mul_nonpos_of_nonneg_of_nonpos (by positivity) ?_
      have : (i : ℝ) + 1 ≤ r := by exact_mod_cast Finset.mem_range.1 hi
      linarith
    linarith

end Kinisi
