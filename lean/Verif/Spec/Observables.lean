import Verif.Py
import Mathlib.Algebra.BigOperators.Group.Finset.Basic
import Mathlib.Algebra.BigOperators.Ring.Finset
import Mathlib.Data.Finset.Prod

/-!
# Specification vocabulary for observables (no reference to the model)
-/

namespace Kinisi.Spec
open Finset
variable {K : Type} [Field K]

/-- The letters of the three axes. -/
def axisLetter (a : Fin 3) : Char := if a = 0 then 'x' else if a = 1 then 'y' else 'z'

/-- The axes named in a dimension string, in any letter case. -/
def axesOf (d : String) : Finset (Fin 3) := univ.filter fun a => axisLetter a ∈ d.toLower.toList

/-- Squared length of the displacement of an atom (first component) in an observation (second component). -/
def sqLen (A : Finset (Fin 3)) (a : Arr3 K) (p : ℕ × ℕ) : K := ∑ x ∈ A, a.get p.1 p.2 x ^ 2

/-- Squared length of the weighted sum over atoms of the displacements in observation `k`. -/
def sqSum (A : Finset (Fin 3)) (q : ℕ → K) (a : Arr3 K) (k : ℕ) : K := ∑ x ∈ A, (∑ i ∈ range a.n0, q i * a.get i k x) ^ 2

/-- All (atom, observation) pairs. -/
def pairs (a : Arr3 K) : Finset (ℕ × ℕ) := range a.n0 ×ˢ range a.n1

/-- Mean of `f` over a finite set. -/
def meanOn {ι : Type} (S : Finset ι) (f : ι → K) : K := (∑ p ∈ S, f p) / (S.card : K)

/-- Unbiased sample variance of `f` over a finite set. -/
def varOn {ι : Type} (S : Finset ι) (f : ι → K) : K := (∑ p ∈ S, (f p - meanOn S f) ^ 2) / ((S.card : K) - 1)

/-- Mean squared displacement. -/
def msd (A : Finset (Fin 3)) (a : Arr3 K) : K :=
  (∑ i ∈ range a.n0, ∑ k ∈ range a.n1, ∑ x ∈ A, a.get i k x ^ 2) / ((a.n0 : K) * (a.n1 : K))

/-- Mean squared total displacement. -/
def mstd (A : Finset (Fin 3)) (a : Arr3 K) : K :=
  (∑ k ∈ range a.n1, ∑ x ∈ A, (∑ i ∈ range a.n0, a.get i k x) ^ 2) / (a.n1 : K)

/-- Mean squared charge displacement along the axes `A`; `q i` is the charge of ion `i`. -/
def mscd (A : Finset (Fin 3)) (q : ℕ → K) (a : Arr3 K) : K :=
  (∑ k ∈ range a.n1, ∑ x ∈ A, (∑ i ∈ range a.n0, q i * a.get i k x) ^ 2) / (a.n1 : K)

/-- Non-Gaussian parameter of a finite family of squared displacements, `3 <r⁴> / (5 <r²>²) - 1`. -/
def ngp {ι : Type} (S : Finset ι) (f : ι → K) : K := 3 * meanOn S (fun p => f p ^ 2) / (5 * meanOn S f ^ 2) - 1

/-- The displacements of all atoms and observations have, along the axes `A`, the second and fourth moments of independent normal
variables of variance `s`. -/
structure GaussianMoments [LinearOrder K] (A : Finset (Fin 3)) (a : Arr3 K) (s : K) : Prop where
  pos : 0 < s
  second : ∀ x ∈ A, meanOn (pairs a) (fun p => a.get p.1 p.2 x ^ 2) = s
  fourth : ∀ x ∈ A, meanOn (pairs a) (fun p => a.get p.1 p.2 x ^ 4) = 3 * s ^ 2
  mixed : ∀ x ∈ A, ∀ y ∈ A, x ≠ y → meanOn (pairs a) (fun p => a.get p.1 p.2 x ^ 2 * a.get p.1 p.2 y ^ 2) = s ^ 2

/-- `sq` is the square root. -/
def IsSqrt [LinearOrder K] (sq : K → K) : Prop := ∀ x, 0 ≤ x → 0 ≤ sq x ∧ sq x ^ 2 = x

/-- `x` is the mean of `k` values of `f`, drawn with replacement from `S`. -/
def MeanOfDraws {ι : Type} (S : Finset ι) (f : ι → K) (k : ℕ) (x : K) : Prop :=
  ∃ d : Fin k → ι, (∀ j, d j ∈ S) ∧ x = (∑ j, f (d j)) / (k : K)

end Kinisi.Spec
