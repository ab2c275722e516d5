import Verif.Model.RealFns

/-!
# Model of atom selection: `get_indices`, `_get_framework`, `_get_molecules`
-/

namespace Kinisi
variable {K : Type} [Field K] [LinearOrder K] [IsStrictOrderedRing K] [FloorRing K]

/-- A Python list or tuple of integers. -/
structure PySeq where
  isTuple : Bool
  vals : List ℤ
  deriving DecidableEq

/-- The `specie_indices` argument: absent, flat, or a sequence of molecules (sequences of atoms). -/
inductive SpecieIdx
  | none
  | flat (s : PySeq)
  | mols (ms : List (List ℤ))

/-- Selected atoms and framework atoms (the second may still be a tuple object given by the user). -/
structure Selection where
  indices : List ℤ
  drift : PySeq
  deriving DecidableEq

/-- Positions `i` (as Python ints) of the list entries that satisfy `p`, in order. -/
def positions {α : Type} (p : α → Bool) (l : List α) : List ℤ :=
  (l.zipIdx.filter fun x => p x.1).map fun x => (x.2 : ℤ)

/-- `get_indices` of the three parsers.  kinisi/parser.py:329-356 (ASE), 477-508 (pymatgen), 643-671 (MDAnalysis).
`symbols` are the `site.symbol`, `site.specie.__str__()`, `site.type` of the atoms of the first frame. -/
def getIndices (symbols : List String) (specie : List String) (framework : Option PySeq) : PyM Selection :=
  let indices := positions (fun s => specie.contains s) symbols
  let drift := positions (fun s => !specie.contains s) symbols
  if indices.length = 0 then .error .valueError
  else match framework with
    | some f => .ok ⟨indices, f⟩
    | none => .ok ⟨indices, ⟨false, drift⟩⟩

/-- `_get_framework`.  kinisi/parser.py:741-764.  With explicit framework indices `drift_indices` is a numpy array,
which has no `append`: AttributeError at the first atom that is not selected. -/
def getFramework (natoms : ℕ) (indices : List ℤ) (framework : Option PySeq) : PyM Selection :=
  let others := ((List.range natoms).map fun i : ℕ => (i : ℤ)).filter fun i => !indices.contains i
  match framework with
  | some f => if others.length = 0 then .ok ⟨indices, ⟨false, f.vals.map (· - 1)⟩⟩ else .error .attributeError
  | none => .ok ⟨indices, ⟨false, others⟩⟩

/-- `np.average(x, weights=w)` along one axis. `weights` whose sum is zero: ZeroDivisionError. -/
def npAverage (w : Option (List K)) (x : List K) : PyM K :=
  match w with
  | none => .ok (x.sum / x.length)
  | some w => if w.sum = 0 then .error .zeroDivisionError else .ok ((List.zipWith (· * ·) x w).sum / w.sum)

/-- `x % 1` for floats. -/
def mod1 (x : K) : K := x - ⌊x⌋

/-- Centre of one molecule along one axis from the fractional coordinates `s` of its atoms.
kinisi/parser.py:716-728. -/
def moleculeCentre (tr : Trig K) (masses : Option (List K)) (s : List K) : PyM K := do
  let theta := s.map fun x => x * (2 * tr.pi)
  let xiBar ← npAverage masses (theta.map tr.cos)
  let zetaBar ← npAverage masses (theta.map tr.sin)
  let thetaBar := tr.arctan2 (-zetaBar) (-xiBar) + tr.pi
  let newS := thetaBar / (2 * tr.pi)
  let recen := s.map fun x => mod1 (x - (newS + 1 / 2))
  let com ← npAverage masses recen
  .ok (mod1 (com + (newS + 1 / 2)))

/-- All three components of the centre of the atoms `atoms` (positions in the frame). -/
def moleculeCentre3 (tr : Trig K) (masses : Option (List K)) (frame : List (V3 K)) (atoms : List ℕ) : PyM (V3 K) := do
  let c0 ← moleculeCentre tr masses (atoms.map fun a => frame.getD a 0 0)
  let c1 ← moleculeCentre tr masses (atoms.map fun a => frame.getD a 0 1)
  let c2 ← moleculeCentre tr masses (atoms.map fun a => frame.getD a 0 2)
  .ok ![c0, c1, c2]

/-- `len(masses) == indices.shape[-1]` when masses are given.  kinisi/parser.py:707-709. -/
def massesFit (masses : Option (List K)) (len : ℕ) : Bool :=
  match masses with
  | none => true
  | some m => decide (m.length = len)

/-- `drift_indices` of `_get_molecules`: explicit framework indices are shifted by one, otherwise all atoms outside the
molecules.  kinisi/parser.py:704-710. -/
def moleculeDrift (natoms : ℕ) (indices : List (List ℤ)) : Option PySeq → List ℤ
  | some f => f.vals.map (· - 1)
  | none => ((List.range natoms).map fun i : ℕ => (i : ℤ)).filter fun i => !indices.flatten.contains i

/-- `np.array([]) - 1` is a *float* array, which cannot be used as an index: IndexError at kinisi/parser.py:730. -/
def floatIndex (framework : Option PySeq) : Bool :=
  match framework with
  | some f => decide (f.vals.length = 0)
  | none => false

/-- `_get_molecules`.  kinisi/parser.py:674-738.
* line 698-701: molecules of unequal length, ValueError;
* line 714: `np.squeeze` of frames with different numbers of atoms, ValueError;
* line 716: molecules without atoms, IndexError (a float index array again). -/
def getMolecules (tr : Trig K) (natoms : ℕ) (coords : List (List (V3 K))) (mols : List (List ℤ)) (masses : Option (List K))
    (framework : Option PySeq) : PyM (List (List (V3 K)) × Selection) :=
  let len := (mols.headD []).length
  let n := (coords.headD []).length
  let indices : List (List ℤ) := mols.map fun m => m.map (· - 1)
  let drift := moleculeDrift natoms indices framework
  if mols.all (fun m => m.length = len) = false then .error .valueError
  else if massesFit masses len = false then .error .valueError
  else if coords.all (fun c => c.length = n) = false then .error .valueError
  else if len = 0 then .error .indexError
  else do
    let atoms ← indices.mapM fun m => m.mapM (npIdx n)
    let com ← coords.mapM fun c => atoms.mapM fun m => moleculeCentre3 tr masses c m
    let dr ← if floatIndex framework = true then .error .indexError else drift.mapM (npIdx n)
    .ok (List.zipWith (fun c cs => cs ++ dr.map fun a => c.getD a 0) coords com,
      ⟨(List.range mols.length).map fun i : ℕ => (i : ℤ),
        ⟨false, (List.range dr.length).map fun i : ℕ => ((mols.length + i : ℕ) : ℤ)⟩⟩)

end Kinisi
