import Mathlib.Data.Real.Basic
import Mathlib.Data.Finset.Card

/-!
# Coefficient of the variances of a random walk
-/

namespace Kinisi.Spec

/-- A random walk with one normal step of variance `σ²` along each of the axes `A` per time `c`: the squared displacements over the time `t` have the variance `2 d (σ² t / c)²`, that is `t²` times this. -/
noncomputable def walkCoefficient (A : Finset (Fin 3)) (σ c : ℝ) : ℝ := 2 * A.card * σ ^ 4 / c ^ 2

end Kinisi.Spec
