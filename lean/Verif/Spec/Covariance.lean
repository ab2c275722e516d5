import Mathlib.Data.Matrix.Mul
import Mathlib.Algebra.Order.Field.Basic

/-!
# Specification vocabulary for covariance matrices
-/

namespace Kinisi.Spec
variable {K : Type} [Field K] [LinearOrder K]

/-- The rows of a matrix with finite entries, as a list of lists. -/
def rowsOf {m : ℕ} (A : Matrix (Fin m) (Fin m) K) : List (List (Option K)) := List.ofFn fun i => List.ofFn fun j => some (A i j)

/-- Positive semi-definite (as a quadratic form; symmetry is stated separately). -/
def PSD {m : ℕ} (A : Matrix (Fin m) (Fin m) K) : Prop := ∀ x : Fin m → K, 0 ≤ ∑ i, ∑ j, x i * A i j * x j

/-- Positive definite. -/
def PD {m : ℕ} (A : Matrix (Fin m) (Fin m) K) : Prop := ∀ x : Fin m → K, x ≠ 0 → 0 < ∑ i, ∑ j, x i * A i j * x j

/-- Squared Euclidean norm. -/
def sqNorm {m : ℕ} (x : Fin m → K) : K := ∑ i, x i ^ 2

/-- The condition number (2-norm, i.e. largest over smallest singular value) is at most `κ`: the matrix stretches no vector more than
`κ` times as much as it stretches any other, and none is sent to zero. -/
def CondLE {m : ℕ} (A : Matrix (Fin m) (Fin m) K) (κ : K) : Prop :=
  ∃ lo hi : K, 0 < lo ∧ 0 ≤ hi ∧ hi ≤ κ * lo ∧
    ∀ x, lo ^ 2 * sqNorm x ≤ sqNorm (A.mulVec x) ∧ sqNorm (A.mulVec x) ≤ hi ^ 2 * sqNorm x

/-- A spectral decomposition of a symmetric matrix: orthonormal columns of `V`, eigenvalues `ev` in any order. -/
def IsEig {m : ℕ} (A : Matrix (Fin m) (Fin m) K) (ev : Fin m → K) (V : Matrix (Fin m) (Fin m) K) : Prop :=
  V.transpose * V = 1 ∧ A = V * Matrix.diagonal ev * V.transpose

end Kinisi.Spec
