import Verif.Py

/-!
# Attributes and properties of `kinisi/diffusion.py`: `Bootstrap` and of the analyzers

Python finds an attribute of an object only if it has been assigned.  The model follows which attributes the methods assign; the values are the business of the other
modules.
-/

namespace Kinisi

/-- diffusion.py:60-87, the attributes that `Bootstrap.__init__` assigns, in order. -/
def initAttrs : List String :=
  ["_displacements", "_delta_t", "_max_obs", "_distributions", "_dt", "_n", "_s", "_v", "_n_bootstrap", "_s_bootstrap", "_v_bootstrap", "_n_o", "_ngp",
   "_sub_sample_dt", "_dimension", "_euclidian_displacements", "_diffusion_coefficient", "_jump_diffusion_coefficient", "_sigma", "_intercept", "gradient",
   "flatchain", "_covariance_matrix", "_slice", "_start_dt", "dims", "_model", "_cond_max"]

/-- diffusion.py:566-602 (also 650-688, 738-780), the further assignments of the constructors of the subclasses. -/
def loopAttrs : List String :=
  ["_iterator", "_n_bootstrap", "_v_bootstrap", "_s_bootstrap", "_n", "_v", "_s", "_ngp", "_dt", "_n_o"]

/-- diffusion.py:342-348, 391-395 and 419-424, the assignments of `bootstrap_GLS` and `generate_covariance_matrix`. -/
def glsAttrs : List String :=
  ["_start_dt", "_model", "_cond_max", "_popt", "_model_v", "_covariance_matrix", "_npd_covariance_matrix", "_covariance_matrix", "flatchain", "gradient",
   "_intercept", "_intercept"]

/-- diffusion.py:149-176, the assignments of `from_dict` after the call of the constructor. -/
def dictAttrs : List String :=
  ["_max_obs", "_euclidian_displacements", "_dt", "_n", "_s", "_v", "_n_bootstrap", "_s_bootstrap", "_v_bootstrap", "_n_o", "_ngp", "_distributions",
   "_diffusion_coefficient", "_jump_diffusion_coefficient", "_sigma", "_intercept", "gradient", "flatchain", "_covariance_matrix", "_start_dt", "_model",
   "_cond_max"]

/-- The methods that assign attributes. -/
inductive Method
  | loop | gls | diffusion | jumpDiffusion | conductivity | fromDict

/-- The assignments of a method in order (diffusion.py:436, 456, 482 for the last one of each fit). -/
def Method.attrs : Method → List String
  | .loop => loopAttrs
  | .gls => glsAttrs
  | .diffusion => glsAttrs ++ ["_diffusion_coefficient"]
  | .jumpDiffusion => glsAttrs ++ ["_jump_diffusion_coefficient"]
  | .conductivity => glsAttrs ++ ["_sigma"]
  | .fromDict => dictAttrs

/-- The attributes that an object can have: those of `__init__` and, for each further call of a method, some of the assignments of the method (not all of them if it
raises or takes another branch). -/
inductive HasAttrs : List String → Prop
  | init : HasAttrs initAttrs
  | call {p l : List String} (m : Method) (h : HasAttrs p) (hl : l.Sublist m.attrs) : HasAttrs (p ++ l)

/-- diffusion.py:179-241, 438-445, 458-465, 484-490: the properties of `Bootstrap` with the attribute that each returns. -/
def bootProps : List (String × String) :=
  [("dt", "_dt"), ("n", "_n"), ("s", "_s"), ("v", "_v"), ("euclidian_displacements", "_euclidian_displacements"), ("ngp", "_ngp"), ("n_i", "_n_i"),
   ("intercept", "_intercept"), ("covariance_matrix", "_covariance_matrix"), ("D", "_diffusion_coefficient"), ("D_J", "_jump_diffusion_coefficient"),
   ("sigma", "_sigma")]

/-- Reading a name from an object with the attributes `p`: a property returns its attribute, any other name is an attribute itself. -/
def readName (p : List String) (name : String) : PyM String :=
  let a := (bootProps.lookup name).getD name
  if a ∈ p then .ok a else .error .attributeError

/-- analyzer.py:314-341, diffusion_analyzer.py:218-238, jump_diffusion_analyzer.py:221-241, conductivity_analyzer.py:239-259: the names that the properties of the analyzers
read from the `Bootstrap` object; `distribution`, `flatchain` and `ngp_max` read the listed ones too. -/
def analyzerReads : List String :=
  ["dt", "euclidian_displacements", "intercept", "ngp", "gradient", "n", "s", "D", "D_J", "sigma"]

end Kinisi
