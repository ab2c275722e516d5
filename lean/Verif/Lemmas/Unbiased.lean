import Verif.Spec.Unbiased
import Verif.Spec.Observables
import Mathlib.MeasureTheory.Integral.Bochner.Set
import Mathlib.Tactic.FieldSimp
import Mathlib.Tactic.Ring

/-!
# Means and sample variances of uncorrelated random variables
-/

set_option linter.unusedSectionVars false
set_option linter.unusedVariables false

namespace Kinisi
open MeasureTheory Spec Finset

variable {Ω : Type} [MeasurableSpace Ω]

theorem meanOn_sub {ι : Type} (S : Finset ι) (hS : S.card ≠ 0) (f : ι → ℝ) (m : ℝ) :
    meanOn S f - m = (∑ i ∈ S, (f i - m)) / S.card := by
  have : (S.card : ℝ) ≠ 0 := by exact_mod_cast hS
  unfold meanOn
  rw [sum_sub_distrib, sum_const, nsmul_eq_mul]
  field_simp

/-- The sum of squared deviations from the mean, through deviations from any other point. -/
theorem sum_sq_dev {ι : Type} (S : Finset ι) (hS : S.card ≠ 0) (f : ι → ℝ) (m : ℝ) :
    ∑ i ∈ S, (f i - meanOn S f) ^ 2 = ∑ i ∈ S, (f i - m) ^ 2 - S.card * (meanOn S f - m) ^ 2 := by
  have hc : (S.card : ℝ) ≠ 0 := by exact_mod_cast hS
  have h1 : ∀ i ∈ S, (f i - meanOn S f) ^ 2 = (f i - m) ^ 2 - 2 * (meanOn S f - m) * (f i - m) + (meanOn S f - m) ^ 2 := by
    intro i _; ring
  have h2 : ∑ i ∈ S, (f i - m) = S.card * (meanOn S f - m) := by
    rw [meanOn_sub S hS f m]; field_simp
  rw [sum_congr rfl h1, sum_add_distrib, sum_sub_distrib, ← mul_sum, h2, sum_const, nsmul_eq_mul]
  ring

namespace Spec.SameMoments
variable {ι : Type} {μ : Measure Ω} [IsProbabilityMeasure μ] {S : Finset ι} {X : ι → Ω → ℝ} {m v : ℝ}

theorem memLp_sub (h : SameMoments μ S X m v) (i : ι) (hi : i ∈ S) : MemLp (fun ω => X i ω - m) 2 μ :=
  (h.memLp i hi).sub (memLp_const m)

theorem integrable (h : SameMoments μ S X m v) (i : ι) (hi : i ∈ S) : Integrable (X i) μ :=
  (h.memLp i hi).integrable (by norm_num)

theorem integrable_mul (h : SameMoments μ S X m v) (i : ι) (hi : i ∈ S) (j : ι) (hj : j ∈ S) :
    Integrable (fun ω => (X i ω - m) * (X j ω - m)) μ := (h.memLp_sub i hi).integrable_mul (h.memLp_sub j hj)

theorem integrable_sq (h : SameMoments μ S X m v) (i : ι) (hi : i ∈ S) : Integrable (fun ω => (X i ω - m) ^ 2) μ :=
  (h.memLp_sub i hi).integrable_sq

/-- The mean of the sample mean. -/
theorem mean_meanOn (h : SameMoments μ S X m v) (hS : S.card ≠ 0) : ∫ ω, meanOn S (fun i => X i ω) ∂μ = m := by
  have hc : (S.card : ℝ) ≠ 0 := by exact_mod_cast hS
  unfold meanOn
  rw [integral_div, integral_finsetSum S fun i hi => h.integrable i hi, sum_congr rfl h.mean, sum_const, nsmul_eq_mul]
  field_simp

theorem sq_dev (S : Finset ι) (hS : S.card ≠ 0) (f : ι → ℝ) (m : ℝ) :
    (meanOn S f - m) ^ 2 = (∑ i ∈ S, ∑ j ∈ S, (f i - m) * (f j - m)) / (S.card : ℝ) ^ 2 := by
  rw [meanOn_sub S hS f m, div_pow, sq (∑ i ∈ S, _), sum_mul_sum]

theorem integrable_meanOn_sq (h : SameMoments μ S X m v) (hS : S.card ≠ 0) :
    Integrable (fun ω => (meanOn S (fun i => X i ω) - m) ^ 2) μ := by
  simp only [sq_dev S hS]
  exact (integrable_finsetSum S fun i hi => integrable_finsetSum S fun j hj => h.integrable_mul i hi j hj).div_const _

/-- The variance of the sample mean. -/
theorem var_meanOn (h : SameMoments μ S X m v) (hS : S.card ≠ 0) :
    ∫ ω, (meanOn S (fun i => X i ω) - m) ^ 2 ∂μ = v / S.card := by
  classical
  have hc : (S.card : ℝ) ≠ 0 := by exact_mod_cast hS
  simp only [sq_dev S hS]
  rw [integral_div, integral_finsetSum S fun i hi => integrable_finsetSum S fun j hj => h.integrable_mul i hi j hj]
  have h1 : ∀ i ∈ S, ∫ ω, ∑ j ∈ S, (X i ω - m) * (X j ω - m) ∂μ = v := by
    intro i hi
    rw [integral_finsetSum S fun j hj => h.integrable_mul i hi j hj, sum_eq_single_of_mem i hi]
    · rw [← h.var i hi]; simp only [sq]
    · intro j hj hij
      exact h.cross i hi j hj fun e => hij e.symm
  rw [sum_congr rfl h1, sum_const, nsmul_eq_mul]
  field_simp

/-- The mean of the sample variance. -/
theorem mean_varOn (h : SameMoments μ S X m v) (hS : 2 ≤ S.card) : ∫ ω, varOn S (fun i => X i ω) ∂μ = v := by
  have h0 : S.card ≠ 0 := by omega
  have hc : (S.card : ℝ) ≠ 0 := by exact_mod_cast h0
  have hc1 : (S.card : ℝ) - 1 ≠ 0 := by
    have : (2 : ℝ) ≤ S.card := by exact_mod_cast hS
    linarith
  unfold varOn
  simp only [sum_sq_dev S h0 _ m]
  rw [integral_div, integral_sub (integrable_finsetSum S fun i hi => h.integrable_sq i hi) ((h.integrable_meanOn_sq h0).const_mul _),
    integral_finsetSum S fun i hi => h.integrable_sq i hi, sum_congr rfl h.var, integral_const_mul, h.var_meanOn h0, sum_const, nsmul_eq_mul]
  field_simp

/-- Means over disjoint blocks are again uncorrelated, with the variance divided by the size of the blocks. -/
theorem blocks {R n : ℕ} {X : Fin R × Fin n → Ω → ℝ} (h : SameMoments μ univ X m v) (hn : n ≠ 0) :
    SameMoments μ univ (fun r ω => meanOn univ fun j : Fin n => X (r, j) ω) m (v / n) := by
  have hc : (univ : Finset (Fin n)).card ≠ 0 := by simpa using hn
  have hr : ∀ r : Fin R, SameMoments μ univ (fun (j : Fin n) ω => X (r, j) ω) m v := fun r =>
    ⟨fun j _ => h.memLp (r, j) (mem_univ _), fun j _ => h.mean (r, j) (mem_univ _), fun j _ => h.var (r, j) (mem_univ _),
      fun i _ j _ hij => h.cross (r, i) (mem_univ _) (r, j) (mem_univ _) fun e => hij (Prod.mk.inj e).2⟩
  refine ⟨?_, fun r _ => (hr r).mean_meanOn hc, fun r _ => ?_, ?_⟩
  · intro r _
    have : (fun ω => meanOn univ fun j : Fin n => X (r, j) ω) = fun ω => ((univ : Finset (Fin n)).card : ℝ)⁻¹ * ∑ j : Fin n, X (r, j) ω := by
      funext ω; unfold meanOn; rw [div_eq_inv_mul]
    rw [this]
    exact (memLp_finsetSum _ fun j _ => h.memLp (r, j) (mem_univ _)).const_mul _
  · rw [(hr r).var_meanOn hc, card_univ, Fintype.card_fin]
  · intro r _ s _ hrs
    have e : ∀ ω, (meanOn univ (fun j => X (r, j) ω) - m) * (meanOn univ (fun j => X (s, j) ω) - m) =
        (∑ i : Fin n, ∑ j : Fin n, (X (r, i) ω - m) * (X (s, j) ω - m)) / ((univ : Finset (Fin n)).card : ℝ) ^ 2 := by
      intro ω
      rw [meanOn_sub _ hc, meanOn_sub _ hc, div_mul_div_comm, sum_mul_sum, sq]
    simp only [e]
    have hi : ∀ i j : Fin n, Integrable (fun ω => (X (r, i) ω - m) * (X (s, j) ω - m)) μ := fun i j =>
      h.integrable_mul (r, i) (mem_univ _) (s, j) (mem_univ _)
    rw [integral_div, integral_finsetSum _ fun i _ => integrable_finsetSum _ fun j _ => hi i j]
    have h0 : ∀ i : Fin n, ∫ ω, ∑ j : Fin n, (X (r, i) ω - m) * (X (s, j) ω - m) ∂μ = 0 := by
      intro i
      rw [integral_finsetSum _ fun j _ => hi i j]
      exact sum_eq_zero fun j _ => h.cross (r, i) (mem_univ _) (s, j) (mem_univ _) fun e => hrs (Prod.mk.inj e).1
    rw [sum_eq_zero fun i _ => h0 i, zero_div]

end Spec.SameMoments

/-! ## Uniform picks -/

namespace Spec.UniformPicks
variable {ι : Type} {N : ℕ} {μ : Measure Ω} [IsProbabilityMeasure μ] {D : ι → Ω → Fin N}

theorem value_eq (D : ι → Ω → Fin N) (f : Fin N → ℝ) (i : ι) :
    (fun ω => f (D i ω)) = fun ω => ∑ a, {ω | D i ω = a}.indicator (fun _ => f a) ω := by
  funext ω
  rw [sum_eq_single (D i ω)]
  · simp
  · intro a _ ha
    simp [Set.indicator, ha.symm]
  · simp

theorem memLp (h : UniformPicks μ D) (f : Fin N → ℝ) (i : ι) : MemLp (fun ω => f (D i ω)) 2 μ := by
  rw [value_eq]
  exact memLp_finsetSum _ fun a _ => memLp_indicator_const 2 (h.meas i a) _ (Or.inr (measure_ne_top μ _))

theorem integral_one (h : UniformPicks μ D) (f : Fin N → ℝ) (i : ι) : ∫ ω, f (D i ω) ∂μ = (∑ a, f a) / N := by
  rw [value_eq, integral_finsetSum _ fun a _ => (integrable_const (f a)).indicator (h.meas i a), sum_div]
  refine sum_congr rfl fun a _ => ?_
  rw [integral_indicator_const _ (h.meas i a), h.one, smul_eq_mul]
  ring

theorem integral_two (h : UniformPicks μ D) (f : Fin N → ℝ) (i j : ι) (hij : i ≠ j) :
    ∫ ω, f (D i ω) * f (D j ω) ∂μ = ((∑ a, f a) / N) * ((∑ a, f a) / N) := by
  have e : (fun ω => f (D i ω) * f (D j ω)) =
      fun ω => ∑ a, ∑ b, {ω | D i ω = a ∧ D j ω = b}.indicator (fun _ => f a * f b) ω := by
    funext ω
    rw [sum_eq_single (D i ω)]
    · rw [sum_eq_single (D j ω)]
      · simp
      · intro b _ hb
        simp [Set.indicator, hb.symm]
      · simp
    · intro a _ ha
      simp [Set.indicator, ha.symm]
    · simp
  have hm : ∀ a b, MeasurableSet {ω | D i ω = a ∧ D j ω = b} := fun a b => (h.meas i a).inter (h.meas j b)
  rw [e, integral_finsetSum _ fun a _ => integrable_finsetSum _ fun b _ => (integrable_const (f a * f b)).indicator (hm a b)]
  have h1 : ∀ a, ∫ ω, ∑ b, {ω | D i ω = a ∧ D j ω = b}.indicator (fun _ => f a * f b) ω ∂μ = ∑ b, (f a * f b) / (N : ℝ) ^ 2 := by
    intro a
    rw [integral_finsetSum _ fun b _ => (integrable_const (f a * f b)).indicator (hm a b)]
    refine sum_congr rfl fun b _ => ?_
    rw [integral_indicator_const _ (hm a b), h.two i j hij, smul_eq_mul]
    ring
  rw [sum_congr rfl fun a _ => h1 a, div_mul_div_comm, sum_mul_sum, sum_div]
  refine sum_congr rfl fun a _ => ?_
  rw [sum_div, sq]

/-- The values of uniform picks are uncorrelated with the mean and the (population) variance of the items. -/
theorem sameMoments (h : UniformPicks μ D) (hN : N ≠ 0) (f : Fin N → ℝ) (S : Finset ι) :
    SameMoments μ S (fun i ω => f (D i ω)) (meanOn univ f) (meanOn univ fun a => (f a - meanOn univ f) ^ 2) where
  memLp i _ := h.memLp f i
  mean i _ := by rw [h.integral_one]; simp [meanOn]
  var i _ := by rw [h.integral_one fun a => (f a - meanOn univ f) ^ 2]; simp [meanOn]
  cross i _ j _ hij := by
    rw [h.integral_two (fun a => f a - meanOn univ f) i j hij]
    have hc : (N : ℝ) ≠ 0 := by exact_mod_cast hN
    have : (∑ a, (f a - meanOn univ f)) / (N : ℝ) = 0 := by
      have := meanOn_sub univ (by simpa using hN) f (meanOn univ f)
      rw [sub_self] at this
      simpa using this.symm
    rw [this, mul_zero]

end Spec.UniformPicks

end Kinisi
