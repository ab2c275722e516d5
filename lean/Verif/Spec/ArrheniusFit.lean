import Mathlib.Analysis.SpecialFunctions.Log.Basic

/-!
# Specification vocabulary for fits to diffusion coefficients
-/

namespace Kinisi.Spec

/-- The weighted sum of squared residuals of the data (temperature, value, error) under a law; `none` if the law has no value at one of the temperatures.  The Gaussian likelihood is
highest where it is lowest. -/
noncomputable def misfit (data : List (ℝ × ℝ × ℝ)) (law : ℝ → Option ℝ) : Option ℝ :=
  (data.mapM fun p => (law p.1).map fun x => ((p.2.1 - x) / p.2.2) ^ 2).map List.sum

/-- Data that follow the law. -/
def Follows (data : List (ℝ × ℝ × ℝ)) (law : ℝ → Option ℝ) : Prop := ∀ p ∈ data, law p.1 = some p.2.1

/-- The parameters lie within bounds (lower, upper or none). -/
def Within : List (ℝ × Option ℝ) → List ℝ → Prop
  | [], [] => True
  | b :: bs, x :: xs => b.1 ≤ x ∧ (∀ u, b.2 = some u → x ≤ u) ∧ Within bs xs
  | _, _ => False

/-- The best parameters within bounds. -/
def BestWithin (bounds : List (ℝ × Option ℝ)) (f : List ℝ → Option ℝ) (θ : List ℝ) : Prop :=
  Within bounds θ ∧ ∃ m, f θ = some m ∧ ∀ θ' m', Within bounds θ' → f θ' = some m' → m ≤ m'

end Kinisi.Spec
