import Verif.Spec.DispFl

/-!
# Specification vocabulary for rounding errors of times
-/

namespace Kinisi.Spec
variable {K : Type} [Field K] [LinearOrder K]

/-- The times belong to the intervals, counted in units of `c`, up to the relative error `e`. -/
def TimesNear (e c : K) (intervals : List ℤ) (times : List K) : Prop := List.Forall₂ (fun (τ : ℤ) (t : K) => |t - τ * c| ≤ e * |τ * c|) intervals times

end Kinisi.Spec
