import Mathlib.Algebra.Order.Field.Basic

/-!
# Specification vocabulary: increments along the intervals, and the likelihood of a single point
-/

namespace Kinisi.Spec
variable {K : Type} [Field K] [LinearOrder K]

/-- The change of a quantity from the previous interval to interval `k`; before the first interval the quantity is zero. -/
def jump (f : ℕ → K) : ℕ → K
  | 0 => f 0
  | k + 1 => f (k + 1) - f k

/-- The log-likelihood (up to a constant) of the gradient of a line through the origin, given a single point: the value `y` with variance `v`
at time `t`.  Negative gradients are excluded. -/
def onePoint (t y v : K) (θ : List K) : Option K :=
  if θ.getD 0 0 < 0 then none else some (-((y - θ.getD 0 0 * t) ^ 2 / (2 * v)))

end Kinisi.Spec
