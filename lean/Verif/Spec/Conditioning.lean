import Verif.Model.GLS
import Verif.Spec.Covariance

/-!
When conditioning a covariance matrix does nothing: condition numbers, correlations and what the routines for conditioning promise.
-/

set_option linter.unusedSectionVars false

namespace Kinisi.Spec

variable {K : Type} [Field K] [LinearOrder K] [IsStrictOrderedRing K] [FloorRing K]

/-- No eigenvalue is more than `q` times another one. -/
def EigenvaluesWithin {m : ℕ} (q : K) (A : Matrix (Fin m) (Fin m) K) : Prop :=
  ∀ ev V, IsEig A ev V → (∀ i, 0 < ev i) ∧ ∀ i j, ev i ≤ q * ev j

/-- All eigenvalues of the correlation matrix `A i j / √(A i i A j j)` are at least `θ`: in the variables `x i / √(A i i)`, the form is at least `θ` times the sum of squares. -/
def CorrelationsAbove {m : ℕ} (θ : K) (A : Matrix (Fin m) (Fin m) K) : Prop :=
  ∀ x : Fin m → K, θ * ∑ i, A i i * x i ^ 2 ≤ ∑ i, ∑ j, x i * A i j * x j

/-- `numpy.linalg.eig`: for symmetric matrices, if anything is returned, a spectral decomposition in some order. -/
def Diagonalises (L : GlsLib K) : Prop :=
  ∀ m (A : Matrix (Fin (m + 1)) (Fin (m + 1)) K) ev V, (∀ i j, A i j = A j i) → L.eig m A = .ok (ev, V) → IsEig A ev V

/-- statsmodels `cov_nearest` (method 'clipped', threshold `1e-15`): a covariance matrix whose correlation matrix has no eigenvalue below the threshold is returned as it is. -/
def KeepsCovariance (L : GlsLib K) : Prop :=
  ∀ m (A B : Matrix (Fin m) (Fin m) K), (∀ i j, A i j = A j i) → (∀ i, 0 < A i i) → CorrelationsAbove (1 / 10 ^ 15) A → L.covNearest m A = .ok B → B = A

end Kinisi.Spec
