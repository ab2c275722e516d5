import Verif.Spec.Disp

/-!
# Specification vocabulary for rounding errors of displacements
-/

namespace Kinisi.Spec
variable {K : Type} [Field K] [LinearOrder K]

/-- Relative error at most `ε` in each operation. -/
def RelErr (fl : K → K) (ε : K) : Prop := ∀ x, |fl x - x| ≤ ε * |x|

/-- The inverse of the cell `L`. -/
def IsInverse (L Linv : M3 K) : Prop := ∀ i j, ∑ k, L i k * Linv k j = if i = j then 1 else 0

/-- The distance to a half-integer that makes the choice of the image certain: relative rounding error `ε`, fractional coordinates up to `C`, cell entries up to `A`,
entries of the inverse cell up to `B`, error of the computed inverse up to `κ`. -/
def imageMargin (ε C A B κ : K) : K := 160 * (ε * (C * A)) * (B + κ) + 19 * (C * A) * κ + ε

/-- Bound for the error of one unwrapped step. -/
def stepError (ε C A B : K) : K := ε * A * (26 * C + 10 * (18 * (C * A) * B + 1) + 2)

/-- Bound for the error of a displacement from the first frame, after `F` steps; displacements up to `M`. -/
def pathError (ε C A B M : K) (F : ℕ) : K := 2 * F * (stepError ε C A B + ε * M)

/-- Bound for the error of a displacement relative to the framework: `η` for each displacement, `γ` relative error of a mean. -/
def driftError (ε γ η M : K) : K := 2 * η + γ * (M + η) + ε * ((2 + γ) * (M + η))

/-- Bound for the error of the displacement in a window: `θ` for each displacement relative to the framework. -/
def windowError (ε θ M : K) : K := 2 * θ + ε * (4 * M + 2 * θ)

/-- Bound for the error of a mean squared displacement of exact value `msd`: displacements up to `W`, error `ω` of each, `γ` relative error of a mean. -/
def msdError (γ ω W msd : K) : K := γ * msd + (1 + γ) * (3 * (ω * (2 * W + ω)))

/-- Bound for the error of the sum over `N` atoms of charge times displacement: charges up to `Q`, displacements up to `W`, error `ω` of each, `γ` relative error of a sum. -/
def totalError (ε γ ω W Q : K) (N : ℕ) : K := N * (Q * (ω + (ε + γ * (1 + ε)) * (W + ω)))

end Kinisi.Spec
