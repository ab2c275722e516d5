import Verif.Py
import Mathlib.Algebra.Order.Floor.Ring
import Mathlib.Algebra.Order.Archimedean.Real.Basic

/-!
# Specification vocabulary for molecules (no reference to the model)
-/

namespace Kinisi.Spec

/-- Weighted mean of positions; equal weights when there are no masses. -/
noncomputable def wmean (masses : Option (List ℝ)) (y : List ℝ) : ℝ :=
  match masses with
  | none => y.sum / y.length
  | some m => ((y.zip m).map fun p => p.1 * p.2).sum / m.sum

/-- All positions within less than half a cell of each other. -/
def Compact (y : List ℝ) : Prop := ∀ a ∈ y, ∀ b ∈ y, a - b < 1 / 2

/-- `x` lists the same points as `y`, each in some periodic image. -/
def SameImages (x y : List ℝ) : Prop := List.Forall₂ (fun a b : ℝ => ∃ k : ℤ, a = b + (k : ℝ)) x y

/-- Admissible masses for a molecule of `n` atoms. -/
def GoodMasses (n : ℕ) : Option (List ℝ) → Prop
  | none => True
  | some m => m.length = n ∧ ∀ w ∈ m, 0 < w

end Kinisi.Spec
