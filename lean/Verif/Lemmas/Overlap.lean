import Mathlib.Algebra.BigOperators.Intervals
import Mathlib.Algebra.Order.BigOperators.Ring.Finset
import Mathlib.Data.Real.Basic
import Mathlib.Tactic.Ring
import Mathlib.Tactic.Linarith
import Mathlib.Tactic.LinearCombination
import Mathlib.Tactic.Positivity
import Mathlib.Tactic.FieldSimp

/-!
# How much windows of equal length overlap
-/

namespace Kinisi
open Finset

/-- Steps shared by the windows of `τ` steps that start at `j` and at `k`. -/
def sharedSteps (τ j k : ℕ) : ℕ := τ - ((j - k) + (k - j))

/-- Sum of the squared overlaps of `W` consecutive windows of `τ` steps. -/
def sharedSum (τ W : ℕ) : ℝ := ∑ j ∈ range W, ∑ k ∈ range W, (sharedSteps τ j k : ℝ) ^ 2

/-- Squared overlaps of a window with the `W` that start before it. -/
def behind (τ W : ℕ) : ℝ := ∑ l ∈ range W, ((τ - (l + 1) : ℕ) : ℝ) ^ 2

theorem behind_short {τ W : ℕ} (h : W ≤ τ) : 6 * behind τ W = 6 * (τ : ℝ) ^ 2 * W - 6 * τ * W * (W + 1) + W * (W + 1) * (2 * W + 1) := by
  unfold behind
  induction W with
  | zero => simp
  | succ W ih =>
    rw [sum_range_succ, mul_add, ih (by omega), Nat.cast_sub h]
    push_cast
    ring

theorem behind_long {τ W : ℕ} (h : τ ≤ W) : 6 * behind τ W = (τ - 1) * τ * (2 * (τ : ℝ) - 1) := by
  induction W, h using Nat.le_induction with
  | base => rw [behind_short le_rfl]; ring
  | succ W h ih =>
    have : behind τ (W + 1) = behind τ W := by
      unfold behind
      rw [sum_range_succ, Nat.sub_eq_zero_of_le (by omega)]
      simp
    rw [this, ih]

theorem sharedSum_succ (τ W : ℕ) : sharedSum τ (W + 1) = sharedSum τ W + 2 * behind τ W + (τ : ℝ) ^ 2 := by
  have e1 : ∑ j ∈ range W, (sharedSteps τ j W : ℝ) ^ 2 = behind τ W := by
    unfold behind
    rw [← sum_range_reflect]
    refine sum_congr rfl fun l hl => ?_
    rw [mem_range] at hl
    unfold sharedSteps
    congr 2
    omega
  have e2 : ∑ k ∈ range W, (sharedSteps τ W k : ℝ) ^ 2 = behind τ W := by
    rw [← e1]
    refine sum_congr rfl fun l _ => ?_
    unfold sharedSteps
    rw [Nat.add_comm]
  have e3 : sharedSteps τ W W = τ := by unfold sharedSteps; omega
  unfold sharedSum
  rw [sum_range_succ]
  simp only [sum_range_succ _ W, sum_add_distrib]
  rw [e1, e2, e3]
  ring

theorem sharedSum_short {τ W : ℕ} (h : W ≤ τ) :
    6 * sharedSum τ W = 6 * (τ : ℝ) ^ 2 * W ^ 2 - 4 * τ * W * ((W : ℝ) ^ 2 - 1) + (W : ℝ) ^ 2 * ((W : ℝ) ^ 2 - 1) := by
  induction W with
  | zero => simp [sharedSum]
  | succ W ih =>
    have := behind_short (τ := τ) (W := W) (by omega)
    have := ih (by omega)
    rw [sharedSum_succ]
    push_cast
    linear_combination ih (by omega) + 2 * behind_short (τ := τ) (W := W) (by omega)

/-- The sum in closed form, for at least `τ` windows. -/
theorem sharedSum_long {τ W : ℕ} (h : τ ≤ W) : 6 * sharedSum τ W = 2 * W * τ * (2 * (τ : ℝ) ^ 2 + 1) - (τ : ℝ) ^ 2 * ((τ : ℝ) ^ 2 - 1) := by
  induction W, h using Nat.le_induction with
  | base => rw [sharedSum_short le_rfl]; ring
  | succ W h ih =>
    rw [sharedSum_succ]
    push_cast
    linear_combination ih + 2 * behind_long h

/-- The same with the first window one step short. -/
def windowSum (τ W : ℕ) : ℝ := sharedSum τ W - (2 * τ - 1)

theorem windowSum_le {τ W : ℕ} (h1 : 1 ≤ τ) (h : 2 * τ + 1 ≤ W) : windowSum τ W * (W + τ - 1) ≤ (W : ℝ) ^ 2 * (τ : ℝ) ^ 3 := by
  have e := sharedSum_long (show τ ≤ W by omega)
  have t1 : (1 : ℝ) ≤ τ := by exact_mod_cast h1
  have w1 : 2 * (τ : ℝ) + 1 ≤ W := by exact_mod_cast h
  unfold windowSum
  obtain ⟨x, hx, hW⟩ : ∃ x : ℝ, 0 ≤ x ∧ (W : ℝ) = 2 * τ + 1 + x := ⟨W - 2 * τ - 1, by linarith, by ring⟩
  obtain ⟨t, ht, hτ⟩ : ∃ t : ℝ, 0 ≤ t ∧ (τ : ℝ) = 1 + t := ⟨τ - 1, by linarith, by ring⟩
  have e' : sharedSum τ W = (2 * W * τ * (2 * (τ : ℝ) ^ 2 + 1) - (τ : ℝ) ^ 2 * ((τ : ℝ) ^ 2 - 1)) / 6 := by linarith
  rw [e', hW, hτ]
  have : 0 ≤ 6 * ((2 * (1 + t) + 1 + x) ^ 2 * (1 + t) ^ 3) - 6 * (((2 * (2 * (1 + t) + 1 + x) * (1 + t) * (2 * (1 + t) ^ 2 + 1) - (1 + t) ^ 2 * ((1 + t) ^ 2 - 1)) / 6 -
      (2 * (1 + t) - 1)) * (2 * (1 + t) + 1 + x + (1 + t) - 1)) := by
    ring_nf
    positivity
  linarith

theorem le_windowSum {τ W : ℕ} (h1 : 1 ≤ τ) (h : 2 * τ + 1 ≤ W) : 2 / 3 * ((W : ℝ) ^ 2 * (τ : ℝ) ^ 3) ≤ windowSum τ W * (W + τ - 1) := by
  have e := sharedSum_long (show τ ≤ W by omega)
  have w1 : 2 * (τ : ℝ) + 1 ≤ W := by exact_mod_cast h
  unfold windowSum
  obtain ⟨x, hx, hW⟩ : ∃ x : ℝ, 0 ≤ x ∧ (W : ℝ) = 2 * τ + 1 + x := ⟨W - 2 * τ - 1, by linarith, by ring⟩
  have e' : sharedSum τ W = (2 * W * τ * (2 * (τ : ℝ) ^ 2 + 1) - (τ : ℝ) ^ 2 * ((τ : ℝ) ^ 2 - 1)) / 6 := by linarith
  rcases Nat.eq_or_lt_of_le h1 with rfl | h2
  · rw [e', hW]
    push_cast
    nlinarith
  · have t1 : (2 : ℝ) ≤ τ := by exact_mod_cast h2
    obtain ⟨t, ht, hτ⟩ : ∃ t : ℝ, 0 ≤ t ∧ (τ : ℝ) = 2 + t := ⟨τ - 2, by linarith, by ring⟩
    rw [e', hW, hτ]
    have : 0 ≤ 6 * (((2 * (2 * (2 + t) + 1 + x) * (2 + t) * (2 * (2 + t) ^ 2 + 1) - (2 + t) ^ 2 * ((2 + t) ^ 2 - 1)) / 6 -
      (2 * (2 + t) - 1)) * (2 * (2 + t) + 1 + x + (2 + t) - 1)) - 4 * ((2 * (2 + t) + 1 + x) ^ 2 * (2 + t) ^ 3) := by
      ring_nf
      positivity
    linarith

end Kinisi
