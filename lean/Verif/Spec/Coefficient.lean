import Verif.Model.GLS

/-!
What `scipy.optimize.curve_fit` computes for the variances of the random walk model.
-/

set_option linter.unusedSectionVars false

namespace Kinisi.Spec

variable {K : Type} [Field K] [LinearOrder K] [IsStrictOrderedRing K] [FloorRing K]

/-- Sum of the squared differences between the variances `v` and `β t² / n`. -/
def varianceMisfit (n t v : List K) (β : K) : K := ∑ i ∈ Finset.range v.length, (v.getD i 0 - β / n.getD i 0 * t.getD i 0 ^ 2) ^ 2

/-- scipy `curve_fit` with `bounds=(0, inf)` and without weights: only finite values are accepted, and the result is the non-negative coefficient of the least sum of squares. -/
def LeastSquares (L : GlsLib K) : Prop :=
  ∀ n t v α, L.curveFit n t v = .ok α → 0 ≤ α ∧ ∃ y : List K, v = y.map some ∧ ∀ β, 0 ≤ β → varianceMisfit n t y α ≤ varianceMisfit n t y β

end Kinisi.Spec
