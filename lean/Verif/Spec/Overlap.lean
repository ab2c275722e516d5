import Mathlib.Data.Real.Basic
import Mathlib.Data.Finset.Card

/-!
# Variance of an average over windows side by side
-/

namespace Kinisi.Spec

/-- A random walk with normal steps of variance `σ²` along each of the axes `A`: squared displacements over `τ` steps have the variance
`2 d σ⁴ τ²`; this is the variance of the average over `N F / τ` independent ones, as many as there are side by side in `F` frames of `N`
atoms. -/
noncomputable def sideBySideVar (A : Finset (Fin 3)) (σ : ℝ) (N F τ : ℕ) : ℝ := 2 * A.card * σ ^ 4 * (τ : ℝ) ^ 2 / (N * (F / τ))

end Kinisi.Spec
