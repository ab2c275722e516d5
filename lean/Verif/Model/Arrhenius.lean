import Verif.Py
import Mathlib.Analysis.SpecialFunctions.Log.Basic

/-!
# `kinisi/arrhenius.py`

Real arithmetic.  `uravu.relationship.Relationship` is not modelled, except that it keeps a reference to the bounds.
-/

set_option linter.unusedVariables false

namespace Kinisi

/-- arrhenius.py:20-22 `R_eV = R / N_A / eV` with the values of `scipy.constants` (CODATA 2018/2022; `R` is the rounded product
8.314462618 in scipy before 1.15 and 8.31446261815324 since: here the latter). -/
noncomputable def rEV : ℝ := 8.31446261815324 / 6.02214076e23 / 1.602176634e-19

/-- arrhenius.py:81-93 `arrhenius` for one temperature.  `none` when the denominator is zero (ZeroDivisionError for Python
numbers, inf or nan for numpy numbers). -/
noncomputable def arrhenius (T Ea A : ℝ) : Option ℝ :=
  open Classical in if rEV * T = 0 then none else some (A * Real.exp (-1 * Ea / (rEV * T)))

/-- arrhenius.py:162-174 `super_arrhenius` for one temperature. -/
noncomputable def superArrhenius (T Ea A T0 : ℝ) : Option ℝ :=
  open Classical in if rEV * (T - T0) = 0 then none else some (A * Real.exp (-1 * Ea / (rEV * (T - T0))))

/-- `self.flatchain[:, j]` of a chain given by its rows: IndexError when the column does not exist. -/
def arrColumn (chain : List (List ℝ)) (j : ℕ) : PyM (List ℝ) :=
  chain.mapM fun row => match row[j]? with
    | some v => .ok v
    | none => .error .indexError

/-- numpy broadcasting of one number with columns of equal length: element-wise application. -/
noncomputable def zip2 (f : ℝ → ℝ → Option ℝ) (a b : List ℝ) : List (Option ℝ) := (a.zip b).map fun p => f p.1 p.2

/-- The same for three columns. -/
noncomputable def zip3 (f : ℝ → ℝ → ℝ → Option ℝ) (a b c : List ℝ) : List (Option ℝ) := (a.zip (b.zip c)).map fun p => f p.1 p.2.1 p.2.2

/-- arrhenius.py:69-78 `StandardArrhenius.extrapolate`. -/
noncomputable def standardExtrapolate (chain : List (List ℝ)) (T : ℝ) : PyM (List (Option ℝ)) := do
  let a ← arrColumn chain 0
  let b ← arrColumn chain 1
  .ok (zip2 (arrhenius T) a b)

/-- arrhenius.py:60-67 `StandardArrhenius.distribution`: one row per temperature. -/
noncomputable def standardDistribution (x : List ℝ) (chain : List (List ℝ)) : PyM (List (List (Option ℝ))) := do
  let a ← arrColumn chain 0
  let b ← arrColumn chain 1
  .ok (x.map fun T => zip2 (arrhenius T) a b)

/-- arrhenius.py:150-159 `SuperArrhenius.extrapolate`. -/
noncomputable def superExtrapolate (chain : List (List ℝ)) (T : ℝ) : PyM (List (Option ℝ)) := do
  let a ← arrColumn chain 0
  let b ← arrColumn chain 1
  let c ← arrColumn chain 2
  .ok (zip3 (superArrhenius T) a b c)

/-- arrhenius.py:142-148 `SuperArrhenius.distribution`. -/
noncomputable def superDistribution (x : List ℝ) (chain : List (List ℝ)) : PyM (List (List (Option ℝ))) := do
  let a ← arrColumn chain 0
  let b ← arrColumn chain 1
  let c ← arrColumn chain 2
  .ok (x.map fun T => zip3 (superArrhenius T) a b c)

/-! ## `SuperArrhenius.__init__` and the default list -/

variable {K : Type}

/-- Bounds: lower and upper end; `none` is `None`. -/
abbrev Bounds (K : Type) := List (K × Option K)

/-- arrhenius.py:41-46 `StandardArrhenius.__init__`: the bounds handed to `Relationship.__init__`, `((0, 1), (0, 1e20))` unless given. -/
def standardBounds [Zero K] [One K] (big : K) (arg : Option (Bounds K)) : Bounds K := arg.getD [(0, some 1), (0, some big)]

/-- The list objects of the Python process by address.  Address 0 is the default value of the parameter `bounds`, which Python
creates once, when the class is defined. -/
abbrev Heap (K : Type) := ℕ → Bounds K

/-- Heap after the class definition (arrhenius.py:115-118), whatever lists the caller has. -/
def Heap.initial [Zero K] [One K] (big : K) (others : Heap K) : Heap K :=
  fun r => if r = 0 then [(0, some 1), (0, some big), (0, none)] else others r

/-- The argument `bounds`: not given, a list object, or a tuple (of tuples). -/
inductive BoundsArg (K : Type)
  | default
  | list (r : ℕ)
  | tuple (b : Bounds K)

/-- The bounds attribute of the object: a reference to a list object, or a tuple. -/
inductive BoundsRef (K : Type)
  | list (r : ℕ)
  | tuple (b : Bounds K)

/-- Reading `self.bounds`. -/
def BoundsRef.read (h : Heap K) : BoundsRef K → Bounds K
  | .list r => h r
  | .tuple b => b

/-- The object that the argument denotes. -/
def BoundsArg.ref : BoundsArg K → BoundsRef K
  | .default => .list 0
  | .list r => .list r
  | .tuple b => .tuple b

/-- arrhenius.py:120-121: `if bounds[2][1] is None: bounds[2] = (0, temperature[0])`.  Assigning to a tuple is a TypeError. -/
def fillT0 [Zero K] (h : Heap K) (b : BoundsRef K) (temperature : List K) : Heap K × PyM Unit :=
  match (b.read h)[2]? with
  | none => (h, .error .indexError)
  | some (_, some _) => (h, .ok ())
  | some (_, none) =>
    match temperature with
    | [] => (h, .error .indexError)
    | t :: _ =>
      match b with
      | .list r => (fun r' => if r' = r then (h r).set 2 (0, some t) else h r', .ok ())
      | .tuple _ => (h, .error .typeError)

/-- arrhenius.py:111-122 `SuperArrhenius.__init__`.  `relationship` stands for `Relationship.__init__`, which may raise.  The result is
the heap afterwards and the bounds attribute. -/
def superInit [Zero K] (relationship : Bounds K → List K → PyM Unit) (h : Heap K) (arg : BoundsArg K) (temperature : List K) :
    Heap K × PyM (BoundsRef K) :=
  match fillT0 h arg.ref temperature with
  | (h1, .error e) => (h1, .error e)
  | (h1, .ok ()) =>
    match relationship (arg.ref.read h1) temperature with
    | .error e => (h1, .error e)
    | .ok () => (h1, .ok arg.ref)

/-- One construction in the history of a process. -/
structure SuperCall (K : Type) where
  relationship : Bounds K → List K → PyM Unit
  arg : BoundsArg K
  temperature : List K

/-- The heap after a history of constructions (exceptions are caught by the caller). -/
def runSuper [Zero K] : Heap K → List (SuperCall K) → Heap K
  | h, [] => h
  | h, c :: cs => runSuper (superInit c.relationship h c.arg c.temperature).1 cs

end Kinisi
