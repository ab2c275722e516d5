import Mathlib.Data.Matrix.Mul
import Mathlib.Algebra.Order.Field.Basic

/-!
# Specification vocabulary for the straight-line fit
-/

namespace Kinisi.Spec
variable {K : Type} [Field K] [LinearOrder K]

/-- The entries of `xs` whose interval is at least `start`. -/
def fittedPart {α : Type} (start : K) (dt : List K) (xs : List α) : List α :=
  ((dt.zip xs).filter fun p => decide (start ≤ p.1)).map Prod.snd

/-- The bilinear form of a matrix. -/
def form {m : ℕ} (P : Matrix (Fin m) (Fin m) K) (x y : Fin m → K) : K := ∑ i, ∑ j, x i * P i j * y j

/-- Residuals of the line with gradient `g` and intercept `c`. -/
def lineResidual {m : ℕ} (t y : Fin m → K) (g c : K) : Fin m → K := fun i => y i - (g * t i + c)

/-- The generalised least-squares normal equations for a line with intercept: the weighted residuals are orthogonal to the intervals and to the
constant. -/
def NormalEquations {m : ℕ} (P : Matrix (Fin m) (Fin m) K) (t y : Fin m → K) (g c : K) : Prop :=
  form P t (lineResidual t y g c) = 0 ∧ form P (fun _ => 1) (lineResidual t y g c) = 0

/-- The normal equation for a line through the origin. -/
def NormalEquation {m : ℕ} (P : Matrix (Fin m) (Fin m) K) (t y : Fin m → K) (g : K) : Prop :=
  form P t (lineResidual t y g 0) = 0

end Kinisi.Spec
