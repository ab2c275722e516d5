import Mathlib.MeasureTheory.Function.L2Space
import Mathlib.MeasureTheory.Integral.Bochner.Basic
import Mathlib.MeasureTheory.Measure.Real

/-!
# Specification vocabulary for unbiased estimates (no reference to the model)
-/

namespace Kinisi.Spec
open MeasureTheory

variable {Ω : Type} [MeasurableSpace Ω]

/-- The random variables `X i`, `i ∈ S`, have finite second moments, the same mean `m` and the same variance `v`, and any two of them are
uncorrelated. -/
structure SameMoments {ι : Type} (μ : Measure Ω) (S : Finset ι) (X : ι → Ω → ℝ) (m v : ℝ) : Prop where
  memLp : ∀ i ∈ S, MemLp (X i) 2 μ
  mean : ∀ i ∈ S, ∫ ω, X i ω ∂μ = m
  var : ∀ i ∈ S, ∫ ω, (X i ω - m) ^ 2 ∂μ = v
  cross : ∀ i ∈ S, ∀ j ∈ S, i ≠ j → ∫ ω, (X i ω - m) * (X j ω - m) ∂μ = 0

/-- The random picks `D i` from `N` items are uniform, and any two of them are independent. -/
structure UniformPicks {ι : Type} {N : ℕ} (μ : Measure Ω) (D : ι → Ω → Fin N) : Prop where
  meas : ∀ i a, MeasurableSet {ω | D i ω = a}
  one : ∀ i a, μ.real {ω | D i ω = a} = 1 / N
  two : ∀ i j, i ≠ j → ∀ a b, μ.real {ω | D i ω = a ∧ D j ω = b} = 1 / (N : ℝ) ^ 2

end Kinisi.Spec
