import Verif.Model.Analyzer

/-!
The values that the docstrings promise for arguments that are left out, typed from the docstrings (not from the signatures).
-/

namespace Kinisi.Spec

/-- The keyword arguments of a fit as documented.  kinisi/diffusion.py:326-335. -/
structure FitDefaults where
  model : Bool
  fitIntercept : Bool
  nSamples : ℕ
  nWalkers : ℕ
  nBurn : ℕ
  thin : ℕ

/-- kinisi/diffusion.py:326-335 ("Optional, default is …"). -/
def documentedFit : FitDefaults := ⟨true, true, 1000, 32, 500, 10⟩

/-- The keyword arguments of the three estimators as documented.  kinisi/diffusion.py:536-547 (also 618-631, 705-719). -/
structure EstimateDefaults where
  bootstrap : Bool
  block : Bool
  nResamples : ℕ
  maxResamples : ℕ
  subSampleDt : ℤ
  dimension : String

/-- kinisi/diffusion.py:533-547. -/
def documentedEstimate : EstimateDefaults := ⟨false, false, 1000, 100000, 1, "xyz"⟩

end Kinisi.Spec
