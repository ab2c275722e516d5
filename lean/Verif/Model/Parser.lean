import Verif.Model.Disp
import Verif.Model.GetDisps
import Verif.Model.Select

/-!
# Model of the parser constructors
-/

namespace Kinisi
variable {K : Type} [Field K] [LinearOrder K] [IsStrictOrderedRing K] [FloorRing K]

/-- Numerical environment: floating point rounding for the time arithmetic, the interior points of `geomspace`,
trigonometry. -/
structure Num (K : Type) where
  fl : K → K
  geo : ℤ → ℤ → ℕ → ℕ → K
  trig : Trig K

/-- The parameters shared by all parsers.  kinisi/parser.py:53-65. -/
structure Params (K : Type) where
  timeStep : PyNum K
  stepSkip : PyNum K
  minDt : Option K := none
  maxDt : Option K := none
  nSteps : ℤ := 100
  spacing : String := "linear"
  sampling : String := "multi-origin"
  memoryLimit : K
  itemsize : ℕ := 8

/-- Attributes of a constructed parser.  `deltaInt` tells whether `delta_t` has an integer dtype. -/
structure Parsed (K : Type) where
  warned : Bool
  timeStep : PyNum K
  stepSkip : PyNum K
  indices : List ℤ
  drift : List ℤ
  coordsCheck : List (V3 K)
  dc : Arr3 K
  intervals : List ℤ
  deltaT : List K
  deltaInt : Bool
  disp3d : List (Arr3 K)
  nO : List K
  volume : Option K

/-- `Parser.correct_drift` for a list or a tuple.  With a non-empty tuple `disp[drift_indices]` at kinisi/parser.py:143 is
multi-dimensional indexing and line 144 fails for every length (IndexError; AxisError, an IndexError, for length 3). -/
def correctDriftSeq (s : PySeq) (disp : Arr3 K) : PyM (Arr3 K) :=
  if s.isTuple && decide (0 < s.vals.length) then .error .indexError else correctDrift s.vals disp

/-- `Parser.__init__`.  kinisi/parser.py:53-92. -/
def parserInit (E : Num K) (P : Params K) (warned : Bool) (disp : Arr3 K) (sel : Selection) : PyM (Parsed K) := do
  let dc ← correctDriftSeq sel.drift disp
  let ti ← initTimeIntervals E.fl E.geo dc.n1 P.timeStep P.stepSkip P.minDt P.maxDt P.nSteps P.spacing
  let o ← getDisps E.fl (E.fl (1 / 10 ^ 9)) P.itemsize P.timeStep P.stepSkip sel.indices P.sampling P.memoryLimit ti dc
  .ok { warned := warned, timeStep := P.timeStep, stepSkip := P.stepSkip, indices := sel.indices, drift := sel.drift.vals,
        coordsCheck := [], dc := dc, intervals := ti, deltaT := o.deltaT,
        deltaInt := P.timeStep.isInt && P.stepSkip.isInt, disp3d := o.disp3d, nO := o.nO, volume := none }

/-- One frame of an ASE or pymatgen trajectory. -/
structure Frame (K : Type) where
  symbols : List String
  frac : List (V3 K)
  latt : M3 K
  volume : K

/-- One frame of an MDAnalysis trajectory: Cartesian positions, box matrix, volume. -/
structure MdaFrame (K : Type) where
  pos : List (V3 K)
  latt : M3 K
  volume : K

/-- `l[::k]` for any integer step: ValueError for 0, reversed for negative steps. -/
def pyStride {α : Type} (k : ℤ) (l : List α) : PyM (List α) :=
  if k = 0 then .error .valueError
  else if 0 < k then .ok (stride k.toNat l)
  else .ok (stride k.natAbs l.reverse)

/-- `get_structure_coords_latt` of ASEParser and PymatgenParser after slicing: first frame, coordinates and cells with
the first entry duplicated.  kinisi/parser.py:303-325, 449-473.  An empty trajectory is an IndexError at the `insert`. -/
def structureCoordsLatt (fr : List (Frame K)) : PyM (Frame K × List (List (V3 K)) × List (M3 K)) :=
  match fr with
  | [] => .error .indexError
  | f0 :: _ => .ok (f0, f0.frac :: fr.map Frame.frac, f0.latt :: fr.map Frame.latt)

/-- Arguments that select atoms. -/
structure Select (K : Type) where
  specie : Option (List String)
  specieIdx : SpecieIdx
  masses : Option (List K)
  framework : Option PySeq

/-- The dispatch on `specie` and `specie_indices`.  kinisi/parser.py:277-287, 412-422, 573-585. -/
def selectAtoms (tr : Trig K) (symbols : List String) (coords : List (List (V3 K))) (S : Select K) :
    PyM (List (List (V3 K)) × Selection) :=
  match S.specie with
  | some sp => do
    let sel ← getIndices symbols sp S.framework
    .ok (coords, sel)
  | none =>
    match S.specieIdx with
    | .none => .error .typeError
    | .flat s =>
      if s.vals.length = 0 then .error .indexError
      else do
        let sel ← getFramework symbols.length s.vals S.framework
        .ok (coords, sel)
    | .mols ms => if ms.length = 0 then .error .indexError else getMolecules tr symbols.length coords ms S.masses S.framework

/-- Common tail of the constructors: selection, displacement, base class. -/
def buildParser (E : Num K) (P : Params K) (S : Select K) (structure_ : Frame K) (coords : List (List (V3 K)))
    (latt : List (M3 K)) : PyM (Parsed K) := do
  let (coords, sel) ← selectAtoms E.trig structure_.symbols coords S
  let (w, disp) ← getDisp coords latt
  let r ← parserInit E P w disp sel
  .ok { r with coordsCheck := coords.headD [], volume := some structure_.volume }

/-- `ASEParser.__init__`.  kinisi/parser.py:259-293.  `step_skip` is passed on unchanged (line 291). -/
def aseParser (E : Num K) (P : Params K) (S : Select K) (subTraj : ℤ) (fr : List (Frame K)) : PyM (Parsed K) := do
  let fr ← pyStride subTraj fr
  let (s, coords, latt) ← structureCoordsLatt fr
  buildParser E P S s coords latt

/-- `PymatgenParser.__init__`.  kinisi/parser.py:394-439.  `self.delta_t *= 1e-3` cannot cast an integer array
(UFuncTypeError, line 439). -/
def pymatgenParser (E : Num K) (P : Params K) (S : Select K) (subTraj : ℤ) (fr : List (Frame K)) : PyM (Parsed K) := do
  let fr ← pyStride subTraj fr
  let (s, coords, latt) ← structureCoordsLatt fr
  let r ← buildParser E { P with stepSkip := P.stepSkip.mul E.fl (.int subTraj) } S s coords latt
  if r.deltaInt then .error .ufuncTypeError
  else .ok { r with deltaT := r.deltaT.map fun t => E.fl (t * E.fl (1 / 10 ^ 3)) }

/-- Reading one MDAnalysis frame: fractional coordinates of every `subAtoms`-th atom.  kinisi/parser.py:628-635. -/
def mdaFrame (types : List String) (subAtoms : ℤ) (f : MdaFrame K) : PyM (Frame K) := do
  let types ← pyStride subAtoms types
  let inv ← inv3 f.latt
  let pos ← pyStride subAtoms f.pos
  .ok { symbols := types, frac := pos.map fun x => vm x inv, latt := f.latt, volume := f.volume }

/-- `MDAnalysisParser.__init__`.  kinisi/parser.py:547-600. -/
def mdaParser (E : Num K) (P : Params K) (S : Select K) (subAtoms subTraj : ℤ) (types : List String) (fr : List (MdaFrame K)) :
    PyM (Parsed K) := do
  let given := match S.specieIdx with
    | .none => false
    | _ => true
  if subAtoms ≠ 1 && given then .error .valueError
  else do
    let fr ← pyStride subTraj fr
    let fr ← fr.mapM (mdaFrame types subAtoms)
    let (s, coords, latt) ← structureCoordsLatt fr
    buildParser E { P with stepSkip := P.stepSkip.mul E.fl (.int subTraj) } S s coords latt

end Kinisi
