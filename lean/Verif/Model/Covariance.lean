import Verif.Model.Observables
import Mathlib.LinearAlgebra.Matrix.Notation

/-!
# `kinisi/diffusion.py`: the covariance matrix

A numpy matrix is a list of rows.  Entries are `Option K` with `none` for a non-finite float.
-/

set_option linter.unusedSectionVars false
set_option linter.unusedVariables false

namespace Kinisi
variable {K : Type} [Field K] [LinearOrder K] [IsStrictOrderedRing K] [FloorRing K]

/-- Float product. -/
def npMul (x y : Option K) : Option K := x.bind fun x => y.map fun y => x * y

/-- `M[i, j] = x`. -/
def setEntry {α : Type} (M : List (List α)) (i j : ℕ) (x : α) : List (List α) := M.modify i fun r => r.set j x

/-- `M[i, j]`. -/
def getEntry {α : Type} (M : List (List α)) (i j : ℕ) : Option α := M[i]?.bind fun r => r[j]?

/-- Body of the inner loop of `_populate_covariance_matrix`, diffusion.py:850-853. -/
def covStep (v : List (Option K)) (n : List K) (i : ℕ) (M : List (List (Option K))) (j : ℕ) : PyM (List (List (Option K))) := do
  let ni ← pyGet n i
  let nj ← pyGet n j
  let vi ← pyGet v i
  let value := npMul (npDiv (some ni) (some nj)) vi
  .ok (setEntry (setEntry M i j value) j i value)

/-- The inner loop, `for j in range(i, variances.size)`. -/
def covRow (v : List (Option K)) (n : List K) (M : List (List (Option K))) (i : ℕ) : PyM (List (List (Option K))) :=
  (List.range' i (v.length - i)).foldlM (covStep v n i) M

/-- diffusion.py:838-854 `_populate_covariance_matrix`. -/
def populateCovariance (v : List (Option K)) (n : List K) : PyM (List (List (Option K))) :=
  (List.range v.length).foldlM (covRow v n) (List.replicate v.length (List.replicate v.length (some 0)))

/-- diffusion.py:406-416 `_model_variance` (inside `generate_covariance_matrix`): `a / n_o * dt**2`, element by element.  Arrays of
different lengths cannot be broadcast, except when one has a single element. -/
def modelVariance (n t : List K) (a : K) : PyM (List (Option K)) :=
  if n.length = t.length then
    .ok ((n.zip t).map fun p => npMul (npDiv (some a) (some p.1)) (some (p.2 ^ 2)))
  else if n.length = 1 then .ok (t.map fun x => npMul (npDiv (some a) (some (n.getD 0 0))) (some (x ^ 2)))
  else if t.length = 1 then .ok (n.map fun x => npMul (npDiv (some a) (some x)) (some (t.getD 0 0 ^ 2)))
  else .error .valueError

/-- The matrix of a list of rows; `none` if an entry is missing or not finite (numpy's `eig` then raises LinAlgError). -/
def finiteMatrix (m : ℕ) (M : List (List (Option K))) : Option (Matrix (Fin m) (Fin m) K) :=
  if (List.finRange m).all fun i => (List.finRange m).all fun j => ((getEntry M i j).bind id).isSome then
    some fun i j => ((getEntry M i j).bind id).getD 0
  else none

/-- The new eigenvalues of diffusion.py:884-886: those below `eigenvalues[0] / cond_max` are raised to it. -/
def clippedEigenvalues {m : ℕ} (ev : Fin (m + 1) → K) (condMax : K) : Fin (m + 1) → K :=
  fun k => if ev k < ev 0 / condMax then ev 0 / condMax else ev k

/-- diffusion.py:870-888 `minimum_eigenvalue_method` for a finite non-empty matrix.  `eig` is `numpy.linalg.eig`, an oracle that returns the
eigenvalues in any order and the matrix with the eigenvectors as columns, or raises.  Eigenvalues and eigenvectors are taken as
real (`numpy.real` in the last line removes rounding artefacts).  A zero `cond_max` gives a matrix without finite entries, on which the caller's `cov_nearest`
raises; the model raises here. -/
def minimumEigenvalueMethod {m : ℕ}
    (eig : Matrix (Fin (m + 1)) (Fin (m + 1)) K → PyM ((Fin (m + 1) → K) × Matrix (Fin (m + 1)) (Fin (m + 1)) K))
    (M : Matrix (Fin (m + 1)) (Fin (m + 1)) K) (condMax : K) : PyM (Matrix (Fin (m + 1)) (Fin (m + 1)) K) :=
  match eig M with
  | .error e => .error e
  | .ok (ev, V) =>
    if condMax = 0 then .error .external
    else .ok (V * Matrix.diagonal (clippedEigenvalues ev condMax) * V.transpose)

end Kinisi
