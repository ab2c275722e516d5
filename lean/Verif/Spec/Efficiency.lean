import Verif.Spec.GLS
import Verif.Spec.Covariance

/-!
# Specification vocabulary for linear estimators of a gradient
-/

namespace Kinisi.Spec
variable {K : Type} [Field K] [LinearOrder K]

/-- The value of the linear estimator with weights `w` on the data `y`. -/
def estimate {m : ℕ} (w y : Fin m → K) : K := ∑ i, w i * y i

/-- Unbiased for lines: the estimate of the gradient of any exact line is its gradient. -/
def UnbiasedLine {m : ℕ} (t w : Fin m → K) : Prop := ∀ g c : K, estimate w (fun i => g * t i + c) = g

/-- Unbiased for lines through the origin. -/
def UnbiasedRay {m : ℕ} (t w : Fin m → K) : Prop := ∀ g : K, estimate w (fun i => g * t i) = g

/-- The variance of the estimate for data with covariance matrix `S`: the sum of `w i * S i j * w j`. -/
def estVariance {m : ℕ} (S : Matrix (Fin m) (Fin m) K) (w : Fin m → K) : K := ∑ i, ∑ j, w i * S i j * w j

/-- The line with gradient `g` and intercept `c` has the highest value of `ll` (minus infinity is `none`). -/
def BestLine (ll : List K → Option K) (g c best : K) : Prop :=
  ll [g, c] = some best ∧ ∀ g' c' l, ll [g', c'] = some l → l ≤ best

/-- The line through the origin with gradient `g` has the highest value of `ll`. -/
def BestRay (ll : List K → Option K) (g best : K) : Prop := ll [g] = some best ∧ ∀ g' l, ll [g'] = some l → l ≤ best

end Kinisi.Spec
