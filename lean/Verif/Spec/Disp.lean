import Verif.Py
import Mathlib.LinearAlgebra.Matrix.Determinant.Basic

/-!
# Specification vocabulary for displacements (no reference to the model)
-/

namespace Kinisi.Spec
variable {K : Type}

/-- The list over frames of the list over atoms of `f frame atom`: the data a trajectory reader hands over. -/
def frames {α : Type} (F n : ℕ) (f : ℕ → ℕ → α) : List (List α) :=
  (List.range F).map fun j => (List.range n).map fun i => f j i

/-- One cell per frame. -/
def cells {α : Type} (F : ℕ) (L : ℕ → α) : List α := (List.range F).map L

/-- Cartesian vector of fractional coordinates `s` in the cell with rows `L`. -/
def cart [CommSemiring K] (L : M3 K) (s : V3 K) : V3 K := fun l => ∑ k, s k * L k l

/-- The lattice vectors span space. -/
def NonSingular [CommRing K] (L : M3 K) : Prop := (Matrix.of L).det ≠ 0

/-- All components in the half-open unit interval around zero. -/
def HalfCell [Field K] [LinearOrder K] (s : V3 K) : Prop := ∀ k, -(1 / 2) ≤ s k ∧ s k < 1 / 2

/-- `d` is the minimum image of `raw` in the cell `L`. -/
def MinImage [Field K] [LinearOrder K] (L : M3 K) (raw d : V3 K) : Prop :=
  (∃ m : Fin 3 → ℤ, ∀ l, d l = raw l - cart L (fun k => (m k : K)) l) ∧ ∃ s : V3 K, HalfCell s ∧ d = cart L s

/-- Mean over the listed atoms of an array entry. -/
def meanOver [Field K] (l : List ℕ) (f : ℕ → K) : K := (l.map f).sum / l.length

/-- A numpy index that exists on an axis of length `n`. -/
def ValidIdx (n : ℕ) (d : ℤ) : Prop := -(n : ℤ) ≤ d ∧ d < n

/-- The position a numpy index denotes: negative indices count from the end. -/
def atomOf (n : ℕ) (d : ℤ) : ℕ := if d < 0 then (d + n).toNat else d.toNat

end Kinisi.Spec
