import Verif.Spec.Efficiency

/-!
# Specification vocabulary: how sharply a likelihood determines the gradient
-/

namespace Kinisi.Spec
variable {K : Type} [Field K] [LinearOrder K]

/-- `ll` determines the gradient with the variance `s`: away from the best gradient `g` (if this is positive) the highest log-likelihood of all lines falls like that of a normal distribution with
variance `s` around `g`. -/
def SpreadLine (ll : List K → Option K) (s : K) : Prop :=
  ∀ g c best, 0 < g → BestLine ll g c best → ∀ g', 0 ≤ g' →
    (∃ c', ll [g', c'] = some (best - (g' - g) ^ 2 / (2 * s))) ∧ ∀ c' l, ll [g', c'] = some l → l ≤ best - (g' - g) ^ 2 / (2 * s)

/-- The same for lines through the origin. -/
def SpreadRay (ll : List K → Option K) (s : K) : Prop :=
  ∀ g best, 0 < g → BestRay ll g best → ∀ g', 0 ≤ g' → ll [g'] = some (best - (g' - g) ^ 2 / (2 * s))

end Kinisi.Spec
