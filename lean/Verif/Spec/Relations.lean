import Verif.Spec.Observables

/-!
# Specification vocabulary for correlations between atoms (no reference to the model)
-/

namespace Kinisi.Spec
open Finset
variable {K : Type} [Field K]

/-- Mean over observations of the sum over all pairs of different atoms of the inner product of their displacements. -/
def distinctPart (A : Finset (Fin 3)) (a : Arr3 K) : K :=
  (∑ k ∈ range a.n1, ∑ i ∈ range a.n0, ∑ j ∈ (range a.n0).erase i, ∑ x ∈ A, a.get i k x * a.get j k x) / (a.n1 : K)

/-- All atoms move alike along the axes `A`, in each observation. -/
def MoveTogether (A : Finset (Fin 3)) (a : Arr3 K) : Prop :=
  ∀ k < a.n1, ∀ i < a.n0, ∀ j < a.n0, ∀ x ∈ A, a.get i k x = a.get j k x

end Kinisi.Spec
