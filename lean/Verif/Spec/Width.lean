import Verif.Spec.Chords
import Mathlib.Algebra.Order.Ring.Defs

/-!
The width of a likelihood in the gradient.
-/

namespace Kinisi.Spec
variable {K : Type} [Field K] [LinearOrder K]

/-- The log-likelihood of the lines through the origin is that of a normal distribution of the gradient about `g₀` with the variance `s`, without the negative gradients. -/
def RayVariance (ll : List K → Option K) (g₀ s : K) : Prop :=
  0 < s ∧ (∀ g, g < 0 → ll [g] = none) ∧ ∃ M, ∀ g, 0 ≤ g → ll [g] = some (M - (g - g₀) ^ 2 / (2 * s))

/-- The log-likelihood of the lines with an intercept is that of a normal distribution, without the negative gradients: whatever the gradient, the intercept is normal with the variance `w` about a mean that is linear in the gradient, and
the gradient (with the intercept maximised, or integrated out) is normal about `g₀` with the variance `s`. -/
def LineVariance (ll : List K → Option K) (g₀ s : K) : Prop :=
  0 < s ∧ (∀ g c, g < 0 → ll [g, c] = none) ∧ ∃ M w c₀ c₁, 0 < w ∧ ∀ g c, 0 ≤ g → ll [g, c] = some (M - (g - g₀) ^ 2 / (2 * s) - (c - (c₀ + c₁ * g)) ^ 2 / (2 * w))

/-- By how much an intercept multiplies the variance of the gradient, for the times `t 0, …, t m`. -/
def interceptFactor (t : ℕ → K) (m : ℕ) : K := 1 + 1 / (t 0 ^ 3 * ∑ k ∈ Finset.range m, chordWeight t k)

end Kinisi.Spec
