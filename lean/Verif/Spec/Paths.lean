import Verif.Spec.EndToEnd
import Verif.Spec.Molecule

/-!
# Specification vocabulary for changing cells and for molecules (no reference to the model)
-/

namespace Kinisi.Spec
variable {K : Type} [Field K] [LinearOrder K]

/-- The cell of edge one: fractional and Cartesian coordinates are the same, so a path in this cell is a Cartesian path. -/
def unitCell : M3 K := fun a b => if a = b then 1 else 0

/-- The file stores the Cartesian path `x` of `n` atoms in cells that change: `C j` is the cell and `s i j` the stored fractional position
of atom `i` in frame `j`.  Each true step is less than half the cell at its end; the stored Cartesian position moves by the true step, less
a whole number of edges of that cell for the faces that the atom has crossed. -/
def StoredIn (F n : ℕ) (C : ℕ → M3 K) (s x : ℕ → ℕ → V3 K) : Prop :=
  ∀ i < n, ∀ j, j + 1 < F →
    (∃ h : V3 K, HalfCell h ∧ ∀ l, x i (j + 1) l - x i j l = cart (C (j + 1)) h l) ∧
    ∃ c : Fin 3 → ℤ, ∀ l, cart (C (j + 1)) (s i (j + 1)) l - cart (C j) (s i j) l =
      x i (j + 1) l - x i j l - cart (C (j + 1)) (fun k => (c k : K)) l

/-- The orthorhombic cell with the given edges. -/
def boxOf (e : Fin 3 → K) : M3 K := fun a b => if a = b then e a else 0

/-- The true centre of a molecule: weighted mean of the true positions of its atoms, axis by axis. -/
noncomputable def centre (masses : Option (List ℝ)) (u : ℕ → ℕ → V3 ℝ) (mol : List ℕ) (j : ℕ) : V3 ℝ := fun k =>
  wmean masses (mol.map fun a => u a j k)

/-- The particles that are followed: the centres of the molecules, then the framework atoms. -/
noncomputable def particles (masses : Option (List ℝ)) (u : ℕ → ℕ → V3 ℝ) (mols : List (List ℕ)) (fw : List ℕ) (i j : ℕ) : V3 ℝ :=
  if i < mols.length then centre masses u (mols.getD i []) j else u (fw.getD (i - mols.length) 0) j

end Kinisi.Spec
