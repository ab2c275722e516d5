import Mathlib.Algebra.Order.Field.Basic
import Mathlib.Algebra.BigOperators.Group.Finset.Basic

/-!
# Specification vocabulary for the intercept of a fit
-/

namespace Kinisi.Spec
variable {K : Type} [Field K]

/-- The value at time zero of the line through the points `k` and `k + 1` of the curve `y` over `t`. -/
def chordIntercept (t y : ℕ → K) (k : ℕ) : K := (t (k + 1) * y k - t k * y (k + 1)) / (t (k + 1) - t k)

/-- The mean of `x 0, …, x (m - 1)` with the weights `w`. -/
def weightedMean (w x : ℕ → K) (m : ℕ) : K := (∑ k ∈ Finset.range m, w k * x k) / ∑ k ∈ Finset.range m, w k

/-- The change of `1 / t` over an interval, squared, per length of the interval. -/
def chordWeight (t : ℕ → K) (k : ℕ) : K := (1 / t k - 1 / t (k + 1)) ^ 2 / (t (k + 1) - t k)

end Kinisi.Spec
