import Mathlib.Algebra.Order.Floor.Ring
import Mathlib.Algebra.Order.Field.Basic
import Mathlib.Algebra.BigOperators.Fin
import Mathlib.Algebra.BigOperators.Intervals
import Mathlib.Algebra.Order.BigOperators.Group.Finset
import Mathlib.Data.Rat.Floor
import Mathlib.Data.Fin.VecNotation
import Mathlib.Tactic.Ring
import Mathlib.Tactic.Linarith
import Mathlib.Tactic.FieldSimp
import Mathlib.Tactic.NormNum
import Mathlib.Tactic.Positivity
import Mathlib.Tactic.FinCases
import Mathlib.Tactic.Push

/-!
# Python / numpy run time primitives used by the model

Nothing here is specific to kinisi.  Every operation that can raise in Python returns `PyM`.
-/

namespace Kinisi

/-- The Python exception classes that the modelled code can raise (itself or through numpy). -/
inductive PyErr
  | valueError
  | indexError
  | keyError
  | typeError
  | attributeError
  | memoryError
  | zeroDivisionError
  | linAlgError
  | ufuncTypeError
  | external   -- an exception escaping from a library routine treated as an oracle
  deriving DecidableEq, Repr

/-- Computations that may raise. -/
abbrev PyM (α : Type*) := Except PyErr α

/-- Cartesian or fractional vector with three components. -/
abbrev V3 (K : Type) := Fin 3 → K

/-- 3×3 matrix; row `k` is lattice vector `k`. -/
abbrev M3 (K : Type) := Fin 3 → Fin 3 → K

/-- A numpy array with shape `[n0, n1, 3]`.  Entries outside the shape are meaningless: the model checks
every index before it reads. -/
structure Arr3 (K : Type) where
  n0 : ℕ
  n1 : ℕ
  get : ℕ → ℕ → V3 K

variable {K : Type}

/-- numpy integer indexing along an axis of length `n`: negative indices count from the end,
`IndexError` when out of bounds. -/
def npIdx (n : ℕ) (i : ℤ) : PyM ℕ :=
  if 0 ≤ i ∧ i < n then .ok i.toNat
  else if i < 0 ∧ -(n : ℤ) ≤ i then .ok (i + n).toNat
  else .error .indexError

/-- Normalisation of a slice bound `i` on an axis of length `n` (Python `slice.indices` for a positive step). -/
def sliceBound (n : ℕ) (i : ℤ) : ℕ :=
  if i < 0 then (i + n).toNat else min i.toNat n

/-- Number of elements picked from `m` elements by `[::step]` for a non-zero step: `ceil(m / |step|)`. -/
def strideCount (m : ℕ) (step : ℤ) : ℕ := (m + step.natAbs - 1) / step.natAbs

/-- `l[::k]` for a positive `k` (Python list or 1-d array): the elements 0, k, 2k, … -/
def stride {α : Type*} (k : ℕ) (l : List α) : List α :=
  (List.range (strideCount l.length k)).filterMap fun i => l[k * i]?

section Field
variable [Field K] [LinearOrder K] [IsStrictOrderedRing K] [FloorRing K]

/-- Python `int(x)`: truncation towards zero. -/
def pyInt (x : K) : ℤ := if 0 ≤ x then ⌊x⌋ else ⌈x⌉

/-- `np.mean` of the entries of a (flattened) array.  numpy returns nan (with a warning) for an empty array; the
model returns `none` there. -/
def npMean (l : List K) : Option K := if l.length = 0 then none else some (l.sum / l.length)

/-- `np.var(l, ddof=1)`; `none` (nan) when there are fewer than two values. -/
def npVar1 (l : List K) : Option K :=
  if l.length ≤ 1 then none
  else
    let m := l.sum / l.length
    some ((l.map fun x => (x - m) ^ 2).sum / ((l.length : K) - 1))

end Field

/-- Row vector times matrix, `einsum('k,kl->l')`. -/
def vm [CommSemiring K] (x : V3 K) (A : M3 K) : V3 K := fun l => ∑ k, x k * A k l

/-- Determinant of a 3×3 matrix. -/
def det3 [CommRing K] (A : M3 K) : K :=
  A 0 0 * (A 1 1 * A 2 2 - A 1 2 * A 2 1) - A 0 1 * (A 1 0 * A 2 2 - A 1 2 * A 2 0)
    + A 0 2 * (A 1 0 * A 2 1 - A 1 1 * A 2 0)

/-- `np.linalg.inv` for one 3×3 matrix in exact arithmetic (adjugate over determinant); `LinAlgError` when singular. -/
def inv3 [Field K] [DecidableEq K] (A : M3 K) : PyM (M3 K) :=
  if det3 A = 0 then .error .linAlgError
  else .ok (fun i j => (![![A 1 1 * A 2 2 - A 1 2 * A 2 1, A 0 2 * A 2 1 - A 0 1 * A 2 2, A 0 1 * A 1 2 - A 0 2 * A 1 1],
    ![A 1 2 * A 2 0 - A 1 0 * A 2 2, A 0 0 * A 2 2 - A 0 2 * A 2 0, A 0 2 * A 1 0 - A 0 0 * A 1 2],
    ![A 1 0 * A 2 1 - A 1 1 * A 2 0, A 0 1 * A 2 0 - A 0 0 * A 2 1, A 0 0 * A 1 1 - A 0 1 * A 1 0]] i j) / det3 A)

end Kinisi
