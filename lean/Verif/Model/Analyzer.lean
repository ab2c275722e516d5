import Verif.Model.Observables

/-!
# `kinisi/analyzer.py`: construction of analyzers from one or several trajectories

The optional imports (`MDAnalysis`, `pymatgen`) are assumed to be installed.
-/

set_option linter.unusedSectionVars false
set_option linter.unusedVariables false

namespace Kinisi
variable {K : Type} [Field K] [LinearOrder K] [IsStrictOrderedRing K] [FloorRing K]

/-- Attributes of `Analyzer`.  analyzer.py:27-31. -/
structure Base (K : Type) where
  deltaT : List K
  disp3d : List (Arr3 K)
  nO : List K
  volume : Option K

/-- The `trajectory` argument: one trajectory, or a list of trajectories. -/
inductive Traj (α : Type)
  | one (x : α)
  | several (xs : List α)

/-- Using the argument as one trajectory (a list where one trajectory is expected fails inside the library). -/
def Traj.asOne {α : Type} : Traj α → PyM α
  | .one x => .ok x
  | .several _ => .error .external

/-- Using the argument as a list of trajectories. -/
def Traj.asList {α : Type} : Traj α → PyM (List α)
  | .one _ => .error .external
  | .several xs => .ok xs

/-- numpy assignment of the array `a` to a slot with shape `(n0, n1, 3)`: axes of length 1 are repeated, any other mismatch
is a ValueError. -/
def assignSlot (n0 n1 : ℕ) (a : Arr3 K) : PyM (Arr3 K) :=
  if (a.n0 = n0 ∨ a.n0 = 1) ∧ (a.n1 = n1 ∨ a.n1 = 1) then
    .ok ⟨n0, n1, fun i k => a.get (if a.n0 = n0 then i else 0) (if a.n1 = n1 then k else 0)⟩
  else .error .valueError

/-- The blocks `blocks`, each of `n0` atoms and `n1` observations, one after the other along the atom axis. -/
def joinBlocks (n0 n1 : ℕ) (blocks : List (Arr3 K)) : Arr3 K :=
  ⟨n0 * blocks.length, n1, fun i k => match blocks[i / n0]? with
    | some b => b.get (i % n0) k
    | none => 0⟩

/-- Body of the loop of `_stack_trajectories` for interval `i` (analyzer.py:284-289): the slots have the shape of the array of the
first trajectory, `u[0].disp_3d[i]`. -/
def stackOne (a0 : Arr3 K) (others : List (Parsed K)) (i : ℕ) : PyM (Arr3 K) := do
  let blocks ← others.mapM fun u => do
    let a ← pyGet u.disp3d i
    assignSlot a0.n0 a0.n1 a
  .ok (joinBlocks a0.n0 a0.n1 (a0 :: blocks))

/-- analyzer.py:273-290 `_stack_trajectories`, for `u = u0 :: others`. -/
def stackTrajectories (u0 : Parsed K) (others : List (Parsed K)) : PyM (List (Arr3 K)) :=
  u0.disp3d.zipIdx.mapM fun p => stackOne p.1 others p.2

/-- `n_o += i._n_o`, in place: the right hand side must have the length of `n_o`, or length 1. -/
def addNO (acc l : List K) : PyM (List K) :=
  if l.length = acc.length then .ok (List.zipWith (· + ·) acc l)
  else match l with
    | [x] => .ok (acc.map fun y => y + x)
    | _ => .error .valueError

/-- analyzer.py:111-115 (also 149-153, 186-190, 223-227, 262-266): `dtype == 'identical'`, after parsing. -/
def poolIdentical : List (Parsed K) → PyM (Base K)
  | [] => .error .indexError
  | u0 :: others => do
    let nO ← (u0 :: others).foldlM (fun acc u => addNO acc u.nO) (List.replicate u0.nO.length 0)
    let disp ← stackTrajectories u0 others
    .ok ⟨u0.deltaT, disp, nO, u0.volume⟩

/-- `cls(u.delta_t, u.disp_3d, u._n_o, u.volume)`. -/
def baseOf (u : Parsed K) : Base K := ⟨u.deltaT, u.disp3d, u.nO, u.volume⟩

/-- The common form of `_from_pymatgen`, `_from_ase`, `_from_Xdatcar`, `_from_file` and `_from_universe`: `parse` is the parser
for one trajectory, `parseJoined` the branch `dtype == 'consecutive'`, which universes do not have. -/
def analyzerFrom {α : Type} (parse : α → PyM (Parsed K)) (parseJoined : Option (List α → PyM (Parsed K)))
    (dtype : Option String) (t : Traj α) : PyM (Base K) :=
  match dtype with
  | none => do
    let x ← t.asOne
    let u ← parse x
    .ok (baseOf u)
  | some s =>
    if s = "identical" then do
      let xs ← t.asList
      let us ← xs.mapM parse
      poolIdentical us
    else if s = "consecutive" then
      match parseJoined with
      | some p => do
        let xs ← t.asList
        let u ← p xs
        .ok (baseOf u)
      | none => .error .valueError
    else .error .valueError

/-- analyzer.py:351-359 `_flatten_list`. -/
def flattenList {α : Type} (l : List (List α)) : List α := l.flatMap fun sub => sub.map fun x => x

/-- analyzer.py:86-122 `_from_pymatgen`. -/
def fromPymatgen (E : Num K) (P : Params K) (S : Select K) (subTraj : ℤ) (dtype : Option String) (t : Traj (List (Frame K))) :
    PyM (Base K) :=
  analyzerFrom (pymatgenParser E P S subTraj) (some fun xs => pymatgenParser E P S subTraj (flattenList xs)) dtype t

/-- analyzer.py:124-159 `_from_ase`. -/
def fromAse (E : Num K) (P : Params K) (S : Select K) (subTraj : ℤ) (dtype : Option String) (t : Traj (List (Frame K))) :
    PyM (Base K) :=
  analyzerFrom (aseParser E P S subTraj) (some fun xs => aseParser E P S subTraj (flattenList xs)) dtype t

/-- analyzer.py:161-197 `_from_Xdatcar`; an `Xdatcar` object (type `X`) has the attribute `structures`. -/
def fromXdatcar {X : Type} (structures : X → List (Frame K)) (E : Num K) (P : Params K) (S : Select K) (subTraj : ℤ)
    (dtype : Option String) (t : Traj X) : PyM (Base K) :=
  analyzerFrom (fun x => pymatgenParser E P S subTraj (structures x))
    (some fun xs => pymatgenParser E P S subTraj (flattenList (xs.map structures))) dtype t

/-- analyzer.py:199-234 `_from_file`; `read` is `Xdatcar(f).structures`. -/
def fromFile (read : String → PyM (List (Frame K))) (E : Num K) (P : Params K) (S : Select K) (subTraj : ℤ)
    (dtype : Option String) (t : Traj String) : PyM (Base K) :=
  analyzerFrom (fun f => do let x ← read f; pymatgenParser E P S subTraj x)
    (some fun fs => do
      let xs ← fs.mapM read
      pymatgenParser E P S subTraj (flattenList xs)) dtype t

/-- A universe: the atom types and the frames. -/
abbrev Universe (K : Type) := List String × List (MdaFrame K)

/-- analyzer.py:236-271 `_from_universe`. -/
def fromUniverse (E : Num K) (P : Params K) (S : Select K) (subAtoms subTraj : ℤ) (dtype : Option String)
    (t : Traj (Universe K)) : PyM (Base K) :=
  analyzerFrom (fun u => mdaParser E P S subAtoms subTraj u.1 u.2) none dtype t

/-! ## The three analyzers -/

/-- An analyzer with the object `_diff`. -/
structure Analyzer (K : Type) extends Base K where
  diff : Boot K

variable {G : Type}

/-- `uncertainty_params` (unpacked into the constructor of the bootstrap object). -/
structure UncParams (K : Type) where
  opt : BootOpts K
  sub : ℤ := 1
  dimension : String := "xyz"

/-- `DiffusionAnalyzer.from_…` after the base object exists: `MSDBootstrap(delta_t, disp_3d, n_o, **uncertainty_params)`.
diffusion_analyzer.py:86-87, 116-117, 145-146, 172-173, 200-201. -/
def diffusionAnalyzer (sq : K → K) (o : Oracle K G) (g : G) (U : UncParams K) (base : PyM (Base K)) :
    PyM (Analyzer K × G) := do
  let A ← base
  let (b, g1) ← msdBootstrap sq o U.opt g A.deltaT A.disp3d A.nO U.sub U.dimension
  .ok (⟨A, b⟩, g1)

/-- `JumpDiffusionAnalyzer.from_…`: the same with `MSTDBootstrap`.  jump_diffusion_analyzer.py:85-87, 115-117, 145-147, 173-175, 202-204. -/
def jumpAnalyzer (sq : K → K) (o : Oracle K G) (g : G) (U : UncParams K) (base : PyM (Base K)) :
    PyM (Analyzer K × G) := do
  let A ← base
  let (b, g1) ← mstdBootstrap sq o U.opt g A.deltaT A.disp3d A.nO U.sub U.dimension
  .ok (⟨A, b⟩, g1)

/-- `ConductivityAnalyzer.from_…`: `MSCDBootstrap` with the ionic charge.  conductivity_analyzer.py:90-92, 123-125, 156-158, 187-189,
219-221. -/
def conductivityAnalyzer (sq : K → K) (o : Oracle K G) (g : G) (U : UncParams K) (charge : Charge K) (base : PyM (Base K)) :
    PyM (Analyzer K × G) := do
  let A ← base
  let (b, g1) ← mscdBootstrap sq o U.opt g A.deltaT A.disp3d charge A.nO U.sub U.dimension
  .ok (⟨A, b⟩, g1)

end Kinisi
