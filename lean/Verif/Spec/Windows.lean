import Verif.Py

/-!
# Specification vocabulary for time windows (no reference to the model)
-/

namespace Kinisi.Spec
variable {K : Type}

/-- Displacement of an atom from the origin after `k` steps; `disp.get atom (k-1)` is the entry for `k ≥ 1` steps. -/
def after [Field K] (disp : Arr3 K) (atom k : ℕ) : V3 K := if k = 0 then 0 else disp.get atom (k - 1)

/-- `a` holds, for each of the atoms, the displacements over all windows of `τ` steps, ordered by starting step. -/
def IsWindows [Field K] (disp : Arr3 K) (atoms : List ℕ) (τ : ℕ) (a : Arr3 K) : Prop :=
  a.n0 = atoms.length ∧ a.n1 = disp.n1 + 1 - τ ∧
    ∀ r, (h : r < atoms.length) → ∀ k < a.n1, ∀ l, a.get r k l = after disp atoms[r] (k + τ) l - after disp atoms[r] k l

/-- Number of non-overlapping windows of `τ` steps of all atoms together. -/
def disjointWindows (natoms T τ : ℕ) : ℕ := natoms * (T / τ)

/-- Bytes of all windows of all intervals: atoms × windows × 3 axes × bytes per number. -/
def windowBytes (itemsize natoms T : ℕ) (intervals : List ℕ) : ℕ :=
  (intervals.map fun τ => natoms * (T + 1 - τ) * 3 * itemsize).sum

end Kinisi.Spec
