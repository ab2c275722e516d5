import Verif.Model.Parser

/-!
# Specification vocabulary for several trajectories
-/

namespace Kinisi.Spec
variable {K : Type}

/-- All parsed trajectories have `m` intervals; the array of interval `i` has `N i` atoms and `T i` observations. -/
def SameShape (us : List (Parsed K)) (m : ℕ) (N T : ℕ → ℕ) : Prop :=
  ∀ u ∈ us, u.disp3d.length = m ∧ u.nO.length = m ∧
    ∀ (i : ℕ) (a : Arr3 K), u.disp3d[i]? = some a → a.n0 = N i ∧ a.n1 = T i

/-- `p` is the concatenation along the atom axis of the arrays `as`, which have `n` atoms and `t` observations each. -/
structure Concat (n t : ℕ) (as : List (Arr3 K)) (p : Arr3 K) : Prop where
  atoms : p.n0 = as.length * n
  obs : p.n1 = t
  get : ∀ (j : ℕ) (a : Arr3 K), as[j]? = some a → ∀ r < n, ∀ k x, p.get (j * n + r) k x = a.get r k x

end Kinisi.Spec
