import Verif.Py
import Mathlib.Analysis.SpecialFunctions.Pow.Real
import Mathlib.Analysis.SpecialFunctions.Complex.Arg

/-!
# The real functions behind numpy's elementary functions
-/

namespace Kinisi

/-- Point `i` of `np.geomspace(a, b, n)` in exact arithmetic: `a * (b/a)^(i/(n-1))`. -/
noncomputable def geoReal (a b : ℤ) (n i : ℕ) : ℝ := (a : ℝ) * ((b : ℝ) / (a : ℝ)) ^ ((i : ℝ) / ((n : ℝ) - 1))

/-- The trigonometric functions used by `_get_molecules`, as parameters of the model. -/
structure Trig (K : Type) where
  cos : K → K
  sin : K → K
  arctan2 : K → K → K
  pi : K

/-- numpy's functions in exact real arithmetic; `np.arctan2(y, x)` is the argument of `x + iy`. -/
noncomputable def realTrig : Trig ℝ where
  cos := Real.cos
  sin := Real.sin
  arctan2 := fun y x => Complex.arg ⟨x, y⟩
  pi := Real.pi

end Kinisi
