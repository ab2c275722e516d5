import Verif.Spec.EndToEnd

/-!
# Specification vocabulary for displacements from the first frame only (no reference to the model)
-/

namespace Kinisi.Spec
variable {K : Type} [Field K] [LinearOrder K]

/-- The mean over the atoms of the squared true displacement from the first frame to frame `j`. -/
def fromStart (A : Finset (Fin 3)) (L : M3 K) (u : ℕ → ℕ → V3 K) (fw atoms : List ℕ) (j : ℕ) : K :=
  (atoms.map fun i => lengthSq A (trueMove L u fw i 0 j)).sum / (atoms.length : K)

/-- The unbiased variance over the atoms of these squared displacements. -/
def spreadFromStart (A : Finset (Fin 3)) (L : M3 K) (u : ℕ → ℕ → V3 K) (fw atoms : List ℕ) (j : ℕ) : K :=
  (atoms.map fun i => (lengthSq A (trueMove L u fw i 0 j) - fromStart A L u fw atoms j) ^ 2).sum / ((atoms.length : K) - 1)

end Kinisi.Spec
