import Mathlib.Probability.Moments.Covariance
import Mathlib.Probability.Moments.Variance
import Mathlib.Probability.Independence.Basic

/-!
# Specification vocabulary for random walks (no reference to the model)
-/

namespace Kinisi.Spec
open MeasureTheory ProbabilityTheory

variable {Ω : Type} [MeasurableSpace Ω]

/-- Independent steps of mean zero with finite fourth moments.  `ι` has one index per atom, frame and axis; the steps need not be
identically distributed. -/
structure RandomWalk {ι : Type} (μ : Measure Ω) (ξ : ι → Ω → ℝ) : Prop where
  indep : iIndepFun ξ μ
  meas : ∀ i, Measurable (ξ i)
  moment : ∀ i, MemLp (ξ i) 4 μ
  mean : ∀ i, ∫ ω, ξ i ω ∂μ = 0

/-- The steps have variance `σ²` and the fourth moment of a normal distribution. -/
structure NormalMoments {ι : Type} (μ : Measure Ω) (ξ : ι → Ω → ℝ) (σ : ℝ) : Prop where
  second : ∀ i, ∫ ω, ξ i ω ^ 2 ∂μ = σ ^ 2
  fourth : ∀ i, ∫ ω, ξ i ω ^ 4 ∂μ = 3 * σ ^ 4

/-- Displacement of atom `i` along axis `x` over the `k`-th of the disjoint windows of `τ` frames; `ξ (i, j, x)` is the step after
frame `j`. -/
def blockMove (ξ : ℕ × ℕ × Fin 3 → Ω → ℝ) (τ i k : ℕ) (x : Fin 3) (ω : Ω) : ℝ := ∑ s ∈ Finset.range τ, ξ (i, k * τ + s, x) ω

/-- Mean squared displacement of `N` atoms over `M` disjoint windows of `τ` frames, along the axes `A`. -/
noncomputable def blockMsd (A : Finset (Fin 3)) (ξ : ℕ × ℕ × Fin 3 → Ω → ℝ) (N τ M : ℕ) (ω : Ω) : ℝ :=
  (∑ i ∈ Finset.range N, ∑ k ∈ Finset.range M, ∑ x ∈ A, blockMove ξ τ i k x ω ^ 2) / ((N : ℝ) * M)

/-- The same over all `T - τ + 1` windows of `τ` steps in a walk of `T` steps. -/
noncomputable def slidingMsd (A : Finset (Fin 3)) (ξ : ℕ × ℕ × Fin 3 → Ω → ℝ) (N τ T : ℕ) (ω : Ω) : ℝ :=
  (∑ i ∈ Finset.range N, ∑ k ∈ Finset.range (T - τ + 1), ∑ x ∈ A, (∑ s ∈ Finset.range τ, ξ (i, k + s, x) ω) ^ 2) /
    ((N : ℝ) * ((T - τ + 1 : ℕ) : ℝ))

/-- Steps `ξ i j l` (atom, frame, axis) of the atoms `atoms` in a walk of `T` steps: every step has mean square `v`, and different steps of
the same atom along the same axis are uncorrelated. -/
structure UncorrelatedSteps (μ : Measure Ω) (ξ : ℕ → ℕ → Fin 3 → Ω → ℝ) (atoms : List ℕ) (T : ℕ) (v : ℝ) : Prop where
  integrable : ∀ i ∈ atoms, ∀ l, ∀ j < T, ∀ j' < T, Integrable (fun ω => ξ i j l ω * ξ i j' l ω) μ
  square : ∀ i ∈ atoms, ∀ l, ∀ j < T, ∫ ω, ξ i j l ω * ξ i j l ω ∂μ = v
  cross : ∀ i ∈ atoms, ∀ l, ∀ j < T, ∀ j' < T, j ≠ j' → ∫ ω, ξ i j l ω * ξ i j' l ω ∂μ = 0

/-- The steps of different atoms along the same axis are uncorrelated. -/
structure UncorrelatedAtoms (μ : Measure Ω) (ξ : ℕ → ℕ → Fin 3 → Ω → ℝ) (atoms : List ℕ) (T : ℕ) : Prop where
  integrable : ∀ i ∈ atoms, ∀ i' ∈ atoms, ∀ l, ∀ j < T, ∀ j' < T, Integrable (fun ω => ξ i j l ω * ξ i' j' l ω) μ
  cross : ∀ i ∈ atoms, ∀ i' ∈ atoms, i ≠ i' → ∀ l, ∀ j < T, ∀ j' < T, ∫ ω, ξ i j l ω * ξ i' j' l ω ∂μ = 0

/-- The steps have mean square `v` and a fourth moment of at most `C`. -/
structure StepMoments {ι : Type} (μ : Measure Ω) (ξ : ι → Ω → ℝ) (v C : ℝ) : Prop where
  second : ∀ i, ∫ ω, ξ i ω ^ 2 ∂μ = v
  fourth : ∀ i, ∫ ω, ξ i ω ^ 4 ∂μ ≤ C

end Kinisi.Spec
