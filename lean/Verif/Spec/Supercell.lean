import Verif.Model.Observables
import Verif.Spec.Observables

/-!
# Specification vocabulary for repeated cells (of the model only the type of the charge argument)
-/

namespace Kinisi.Spec
variable {K : Type} [Field K]

/-- The symbols of `R` copies of a cell, one copy after the other. -/
def superSymbols (R : ℕ) (sy : List String) : List String := (List.replicate R sy).flatten

/-- The atoms `l` of a cell with `n` atoms in each of `R` copies. -/
def copies (R n : ℕ) (l : List ℕ) : List ℕ := (List.range R).flatMap fun c => l.map fun a => c * n + a

/-- The motion of `R` copies of a cell with `n` atoms, copy `c` being displaced by `off c`. -/
def superMotion (n : ℕ) (off : ℕ → V3 K) (x : ℕ → ℕ → V3 K) : ℕ → ℕ → V3 K := fun i j l => x (i % n) j l + off (i / n) l

/-- The array `a'` holds the rows of `a`, `R` times. -/
structure Copied (R : ℕ) (a a' : Arr3 K) : Prop where
  n0 : a'.n0 = R * a.n0
  n1 : a'.n1 = a.n1
  get : ∀ c < R, ∀ r < a.n0, ∀ k < a.n1, a'.get (c * a.n0 + r) k = a.get r k

/-- The cell repeated `m k` times along the lattice vector `k`. -/
def superCell (m : Fin 3 → ℕ) (L : M3 K) : M3 K := fun k l => (m k : K) * L k l

/-- The charges of `R` copies of the ions. -/
def superCharge (R : ℕ) : Charge K → Charge K
  | .scalar q => .scalar q
  | .array l => .array (List.replicate R l).flatten

end Kinisi.Spec
