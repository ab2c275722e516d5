import Verif.Spec.Disp

/-!
# Specification vocabulary for the shortest periodic image (no reference to the model)
-/

namespace Kinisi.Spec
variable {K : Type} [Field K] [LinearOrder K]

/-- Squared length of a Cartesian vector. -/
def norm2 (d : V3 K) : K := ∑ l, d l ^ 2

/-- Inner product of two Cartesian vectors. -/
def inner3 (a b : V3 K) : K := ∑ l, a l * b l

/-- `d` differs from `raw` by a lattice vector. -/
def Image (L : M3 K) (raw d : V3 K) : Prop := ∃ m : Fin 3 → ℤ, ∀ l, d l = raw l - cart L (fun k => (m k : K)) l

/-- `d` is an image of `raw`, and no image is shorter. -/
def Shortest (L : M3 K) (raw d : V3 K) : Prop := Image L raw d ∧ ∀ e, Image L raw e → norm2 d ≤ norm2 e

/-- The lattice vectors are perpendicular to each other (the axes of the box need not be the Cartesian axes). -/
def RightAngled (L : M3 K) : Prop := ∀ r c, r ≠ c → inner3 (L r) (L c) = 0

/-- The vectors `b` are the normals of the faces of the cell: `b k` is perpendicular to the two lattice vectors other than `k`, and its
length is one over the distance between the two faces that it is normal to. -/
def FaceNormals (L b : M3 K) : Prop := ∀ r k, inner3 (L r) (b k) = if r = k then 1 else 0

/-- `d` is shorter than half of each of the three distances between opposite faces of the cell: `2 |d| < 1 / |b k|`. -/
def WithinHalfWidth (L : M3 K) (d : V3 K) : Prop := ∃ b, FaceNormals L b ∧ ∀ k, 4 * norm2 d * norm2 (b k) < 1

end Kinisi.Spec
