import Verif.Model.Random

/-!
# Reproducibility

What a caller who passes a `RandomState` may expect.
-/

set_option linter.unusedSectionVars false
set_option linter.unusedVariables false

namespace Kinisi.Spec
variable {K : Type} [Field K] [LinearOrder K] [IsStrictOrderedRing K] [FloorRing K] {Γ : Type}

/-- The action is a construction or a fit. -/
def isCall : Act K Γ → Bool
  | .build _ _ => true
  | .fit _ _ => true
  | _ => false

/-- The result of a construction or of a fit. -/
def isResult : Out K → Bool
  | .predicted _ => false
  | .nothing => false
  | _ => true

/-- Every construction and every fit is given the caller's `RandomState`. -/
def PassesState (as : List (Act K Γ)) : Prop :=
  (∀ c, Act.build false c ∉ as) ∧ ∀ f, Act.fit false f ∉ as

/-- No fit has been made of the object. -/
def NotFitted (b : Boot K) : Prop := b.startDt = none ∧ b.gradient = none

end Kinisi.Spec
