import Verif.Lemmas.Statistics

/-!
# Variance of averages over overlapping windows
-/

set_option linter.unusedSectionVars false
set_option linter.unusedVariables false

namespace Kinisi
open MeasureTheory ProbabilityTheory Spec

variable {Ω : Type} [MeasurableSpace Ω] {μ : Measure Ω} [IsProbabilityMeasure μ] {ι : Type} [DecidableEq ι]

theorem moveOver_fourth_le {ξ : ι → Ω → ℝ} (h : RandomWalk μ ξ) {v C : ℝ} (hs : StepMoments μ ξ v C) (S : Finset ι) :
    ∫ ω, moveOver ξ S ω ^ 4 ∂μ ≤ S.card * (C + 6 * S.card * v ^ 2) := by
  induction S using Finset.induction_on with
  | empty => simp [moveOver]
  | insert i S hi ih =>
    have hd : Disjoint {i} S := Finset.disjoint_singleton_left.mpr hi
    simp only [moveOver_insert hi]
    rw [fourth_add (moveOver_measurable h _) (moveOver_measurable h _) (moveOver_memLp h _) (moveOver_memLp h _) (moveOver_indep h hd)
      (moveOver_mean h _) (moveOver_mean h _), moveOver_second h hs.second S, Finset.card_insert_of_notMem hi]
    have h2 : ∫ ω, moveOver ξ {i} ω ^ 2 ∂μ = v := by simp only [moveOver, Finset.sum_singleton]; exact hs.second i
    have h4 : ∫ ω, moveOver ξ {i} ω ^ 4 ∂μ ≤ C := by simp only [moveOver, Finset.sum_singleton]; exact hs.fourth i
    rw [h2]
    push_cast
    nlinarith [mul_nonneg (Nat.cast_nonneg (α := ℝ) S.card) (sq_nonneg v), sq_nonneg v]

theorem moveOver_var_le {ξ : ι → Ω → ℝ} (h : RandomWalk μ ξ) {v C : ℝ} (hs : StepMoments μ ξ v C) (S : Finset ι) :
    Var[fun ω => moveOver ξ S ω ^ 2; μ] ≤ S.card * (C + 6 * S.card * v ^ 2) := by
  rw [variance_eq_sub (sq_memLp h S)]
  have : ∫ ω, ((fun ω => moveOver ξ S ω ^ 2) ^ 2) ω ∂μ = ∫ ω, moveOver ξ S ω ^ 4 ∂μ := by
    congr 1; funext ω; simp only [Pi.pow_apply]; ring
  rw [this]
  nlinarith [moveOver_fourth_le h hs S, sq_nonneg (∫ ω, (fun ω => moveOver ξ S ω ^ 2) ω ∂μ)]

/-- A sum of squared displacements over windows of at most `n` steps, each of which meets at most `m` windows of the family. -/
theorem var_overlap {ξ : ι → Ω → ℝ} (h : RandomWalk μ ξ) {v C : ℝ} (hC : 0 ≤ C) (hs : StepMoments μ ξ v C) {α : Type} [DecidableEq α]
    (P : Finset α) (S : α → Finset ι) (n m : ℕ) (hn : ∀ a ∈ P, (S a).card ≤ n) (N : α → Finset α) (hN : ∀ a ∈ P, (N a).card ≤ m)
    (hmeet : ∀ a ∈ P, ∀ b ∈ P, b ∉ N a → Disjoint (S a) (S b)) :
    Var[fun ω => ∑ a ∈ P, moveOver ξ (S a) ω ^ 2; μ] ≤ P.card * (m * (n * (C + 6 * n * v ^ 2))) := by
  set B : ℝ := n * (C + 6 * n * v ^ 2) with hB
  have hB0 : 0 ≤ B := by rw [hB]; positivity
  rw [← covariance_self (Finset.measurable_fun_sum _ fun b _ => (moveOver_measurable h (S b)).pow_const 2).aemeasurable,
    covariance_fun_sum_fun_sum' (fun a _ => sq_memLp h (S a)) (fun b _ => sq_memLp h (S b))]
  have row : ∀ a ∈ P, ∑ b ∈ P, cov[fun ω => moveOver ξ (S a) ω ^ 2, fun ω => moveOver ξ (S b) ω ^ 2; μ] ≤ m * B := by
    intro a ha
    have e : ∀ b ∈ P, cov[fun ω => moveOver ξ (S a) ω ^ 2, fun ω => moveOver ξ (S b) ω ^ 2; μ] ≤ if b ∈ N a then B else 0 := by
      intro b hb
      split_ifs with hbn
      · rw [cov_inter h]
        refine (moveOver_var_le h hs _).trans ?_
        have hc : ((S a ∩ S b).card : ℝ) ≤ n := by exact_mod_cast (Finset.card_le_card Finset.inter_subset_left).trans (hn a ha)
        rw [hB]
        gcongr
      · rw [cov_disjoint h (hmeet a ha b hb hbn)]
    refine (Finset.sum_le_sum e).trans ?_
    rw [← Finset.sum_filter, Finset.sum_const, nsmul_eq_mul]
    have : ((P.filter fun b => b ∈ N a).card : ℝ) ≤ m := by
      have h1 : (P.filter fun b => b ∈ N a) ⊆ N a := fun b hb => (Finset.mem_filter.mp hb).2
      exact_mod_cast (Finset.card_le_card h1).trans (hN a ha)
    exact mul_le_mul_of_nonneg_right this hB0
  refine (Finset.sum_le_sum row).trans ?_
  rw [Finset.sum_const, nsmul_eq_mul]

end Kinisi
