import Verif.Spec.EndToEnd

/-!
# Specification vocabulary for rounding errors of variances
-/

namespace Kinisi.Spec
variable {K : Type} [Field K]

/-- Unbiased sample variance of a list. -/
def sampleVar (l : List K) : K := (l.map fun x => (x - l.sum / (l.length : K)) ^ 2).sum / ((l.length : K) - 1)

/-- Mean of the absolute values of a list. -/
def meanAbs [LinearOrder K] (l : List K) : K := (l.map fun x => |x|).sum / (l.length : K)

/-- The squared total displacements behind `reportedTotal`: over the first `τ - 1` frames, then over each window of `τ` frames. -/
def reportedTotals (A : Finset (Fin 3)) (L : M3 K) (u : ℕ → ℕ → V3 K) (fw atoms : List ℕ) (q : ℕ → K) (F τ : ℕ) : List K :=
  lengthSq A (totalMove L u fw atoms q 0 (τ - 1)) :: (List.range (F - τ)).map fun s => lengthSq A (totalMove L u fw atoms q s (s + τ))

/-- Bound for the error of a variance of exact value `v`: values up to `T`, error `η` of each, `γ` relative error of a sum. -/
def varError (γ η T v : K) : K := γ * v + (1 + γ) * (8 * (η * (T + η)) + 2 * (γ * (T + η)) ^ 2)

end Kinisi.Spec
