import Verif.Py

/-!
# Specification vocabulary: arrays with the same content (no reference to the model)
-/

namespace Kinisi.Spec
variable {K : Type} [Zero K]

/-- The array as numpy sees it: what the model has outside of the shape is replaced by zero.  Two arrays are equal for numpy if and only if
their clipped forms are equal, see `clip_eq_iff`. -/
def clip (a : Arr3 K) : Arr3 K := ⟨a.n0, a.n1, fun i k => if i < a.n0 ∧ k < a.n1 then a.get i k else 0⟩

end Kinisi.Spec
