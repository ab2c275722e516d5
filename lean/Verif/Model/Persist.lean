import Verif.Model.Analyzer
import Mathlib.Data.Nat.Digits.Defs
import Mathlib.Data.List.Sort
import Mathlib.Data.List.Lex

/-!
# Saving and loading: `kinisi/analyzer.py` (`save`, `load`, `_dict_to_group`, `_group_to_dict`), `to_dict` and `from_dict`

Strings are lists of characters.  An HDF5 file is the list of its datasets with their paths; groups are the proper prefixes
of these paths (`_dict_to_group` creates no other groups).  A group lists its members by name.  h5py returns a stored
`str` as `bytes`, a stored `int` as `numpy.int64`, a stored `bool` as `numpy.bool_` and a stored `float` as
`numpy.float64`, which is a `float`.  Not modelled: arrays without axes, arrays of strings, empty `bytes` and zero
characters inside strings (which h5py refuses or truncates).
-/

set_option linter.unusedSectionVars false
set_option linter.unusedVariables false

namespace Kinisi

abbrev Str := List Char

open Lean in
/-- A string literal as a list of characters. -/
macro "k!" s:str : term => do
  let cs := (s.getString.toList.map Syntax.mkCharLit).toArray
  `(([$cs,*] : Str))

/-! ## Python values -/

/-- Contents of a numpy array of floats with one, two or three axes. -/
inductive Nd (K : Type)
  | d1 (l : List (Option K))
  | d2 (m : List (List (Option K)))
  | d3 (a : Arr3 K)

/-- Python values that occur in the dictionaries.  `bool` is a subclass of `int`; `npInt` and `npBool` are the numpy types,
which are not; `other` is any type that is not listed (tuples for instance). -/
inductive Val (K : Type)
  | arr (a : Nd K)
  | int (z : ℤ)
  | bool (b : Bool)
  | float (x : Option K)
  | str (s : Str)
  | bytes (s : Str)
  | npInt (z : ℤ)
  | npBool (b : Bool)
  | null
  | list (l : List (Val K))
  | dict (e : List (Str × Val K))
  | other

/-- What a dataset holds. -/
inductive Stored (K : Type)
  | arr (a : Nd K)
  | int (z : ℤ)
  | bool (b : Bool)
  | float (x : Option K)
  | str (s : Str)
  | bytes (s : Str)

variable {K : Type}

/-- Decimal digits of a natural number, `f'{i}'`. -/
def dec (n : ℕ) : Str := if n = 0 then ['0'] else ((Nat.digits 10 n).map Nat.digitChar).reverse

/-- `f'{i}'` for an integer. -/
def decZ (z : ℤ) : Str := if z < 0 then '-' :: dec z.natAbs else dec z.natAbs

/-- `int(s)` for strings of ASCII digits with an optional minus sign.  (Python accepts some more forms, such as surrounding
blanks, a plus sign and underscores between digits.) -/
def digitsVal : ℕ → Str → PyM ℕ
  | acc, [] => .ok acc
  | acc, c :: s => if c.isDigit then digitsVal (10 * acc + (c.toNat - 48)) s else .error .valueError

def pyIntOf : Str → PyM ℤ
  | [] => .error .valueError
  | '-' :: s => if s = [] then .error .valueError else (digitsVal 0 s).map fun n : ℕ => -(n : ℤ)
  | s => (digitsVal 0 s).map fun n : ℕ => (n : ℤ)

/-! ## Files -/

/-- The datasets of an HDF5 file with their paths. -/
abbrev File (K : Type) := List (List Str × Stored K)

/-- A path component, if it counts: empty ones and `.` are skipped by HDF5. -/
def component (acc : Str) : List Str := if acc = [] ∨ acc = ['.'] then [] else [acc]

def compsAux (acc : Str) : Str → List Str
  | [] => component acc
  | c :: s => if c = '/' then component acc ++ compsAux [] s else compsAux (acc ++ [c]) s

/-- The components of an HDF5 path. -/
def comps (path : Str) : List Str := compsAux [] path

/-- The rest of the path `q` after its prefix `p`. -/
def strip : List Str → List Str → Option (List Str)
  | [], q => some q
  | _ :: _, [] => none
  | a :: p, b :: q => if a = b then strip p q else none

/-- All datasets at or below the path `p`. -/
def under (f : File K) (p : List Str) : File K := f.filterMap fun e => (strip p e.1).map fun r => (r, e.2)

/-- What is found at a path. -/
inductive Node (K : Type)
  | data (s : Stored K)
  | group

/-- `h5file[path]`, without the KeyError. -/
def nodeAt (f : File K) (p : List Str) : Option (Node K) :=
  match (under f p).lookup [] with
  | some s => some (.data s)
  | none => if (under f p).isEmpty ∧ p ≠ [] then none else some .group

/-- The names in a group, in the order in which h5py lists them. -/
def childNames (u : File K) : List Str := ((u.filterMap fun e => e.1.head?).dedup).insertionSort (· ≤ ·)

/-- `h5file[path].keys()`: KeyError if there is nothing at the path, AttributeError for a dataset. -/
def groupKeys (f : File K) (p : List Str) : PyM (List Str) :=
  match nodeAt f p with
  | none => .error .keyError
  | some (.data _) => .error .attributeError
  | some .group => .ok (childNames (under f p))

/-- `h5file[path] = value`: groups on the way are created; an error if the name exists or a dataset is in the way. -/
def writeData (f : File K) (path : Str) (s : Stored K) : PyM (File K) :=
  if (nodeAt f (comps path)).isSome then .error .external
  else if f.any fun e => (strip e.1 (comps path)).isSome then .error .external
  else .ok (f ++ [(comps path, s)])

/-- A sequence of assignments; the file after the first failure is kept. -/
def hdfWriteAll : File K → List (Str × Stored K) → File K × Option PyErr
  | f, [] => (f, none)
  | f, (p, s) :: ops =>
    match writeData f p s with
    | .error e => (f, some e)
    | .ok f1 => hdfWriteAll f1 ops

/-! ## analyzer.py:362-384 `_dict_to_group` -/

/-- `isinstance(value, (np.ndarray, int, float, str, bytes))`, and what is then stored. -/
def storable : Val K → Option (Stored K)
  | .arr a => some (.arr a)
  | .int z => some (.int z)
  | .bool b => some (.bool b)
  | .float x => some (.float x)
  | .str s => some (.str s)
  | .bytes s => some (.bytes s)
  | _ => none

def nullText : Str := k! "NULL"
def listText : Str := k! "list"

/-- Assignments that are carried out before an exception, and the exception. -/
abbrev Ops (K : Type) := List (Str × Stored K) × Option PyErr

/-- First `a`, and unless that raises `b`. -/
def Ops.andThen (a b : Ops K) : Ops K :=
  match a.2 with
  | some e => a
  | none => (a.1 ++ b.1, b.2)

mutual
/-- The loop over the items of a dictionary, as the list of the assignments `h5file[p] = v` in order. -/
def dictOps (path : Str) : List (Str × Val K) → Ops K
  | [] => ([], none)
  | (k, v) :: e => (valOps path k v).andThen (dictOps path e)

/-- One item. -/
def valOps (path key : Str) : Val K → Ops K
  | .list l => listOps path key 0 l
  | .dict d => dictOps (path ++ key ++ ['/']) d
  | .null => ([(path ++ key, .str nullText)], none)
  | .arr a => ([(path ++ key, .arr a)], none)
  | .int z => ([(path ++ key, .int z)], none)
  | .bool b => ([(path ++ key, .bool b)], none)
  | .float x => ([(path ++ key, .float x)], none)
  | .str s => ([(path ++ key, .str s)], none)
  | .bytes s => ([(path ++ key, .bytes s)], none)
  | .npInt _ => ([], some .valueError)
  | .npBool _ => ([], some .valueError)
  | .other => ([], some .valueError)

/-- The elements of a list from number `i` on; elements of other types are passed over without an exception. -/
def listOps (path key : Str) (i : ℕ) : List (Val K) → Ops K
  | [] => ([], none)
  | v :: l => (elemOps (path ++ key ++ '/' :: listText ++ dec i) v).andThen (listOps path key (i + 1) l)

/-- One element of a list, to be stored at `p`. -/
def elemOps (p : Str) : Val K → Ops K
  | .dict d => dictOps (p ++ ['/']) d
  | .arr a => ([(p, .arr a)], none)
  | .int z => ([(p, .int z)], none)
  | .bool b => ([(p, .bool b)], none)
  | .float x => ([(p, .float x)], none)
  | .str s => ([(p, .str s)], none)
  | .bytes s => ([(p, .bytes s)], none)
  | .list _ => ([], none)
  | .null => ([], none)
  | .npInt _ => ([], none)
  | .npBool _ => ([], none)
  | .other => ([], none)
end

/-! ## analyzer.py:387-427 `_group_to_dict` -/

/-- `value[()]` of a dataset, with the test for `b'NULL'`. -/
def readData : Stored K → Val K
  | .arr a => .arr a
  | .int z => .npInt z
  | .bool b => .npBool b
  | .float x => .float x
  | .str s => if s = nullText then .null else .bytes s
  | .bytes s => if s = nullText then .null else .bytes s

/-- The element number `i` of a list: analyzer.py:411-421.  `rec` is the recursive call. -/
def readElem (rec : Str → PyM (List (Str × Val K))) (f : File K) (pk : Str) (i : ℤ) : PyM (Val K) :=
  match nodeAt f (comps (pk ++ '/' :: listText ++ decZ i)) with
  | none => .error .keyError
  | some (.data s) => .ok (readData s)
  | some .group => (rec (pk ++ '/' :: listText ++ decZ i)).map .dict

/-- The members of a group as a list: analyzer.py:408-421. -/
def readList (rec : Str → PyM (List (Str × Val K))) (f : File K) (pk : Str) (names : List Str) : PyM (Val K) := do
  let is ← names.mapM fun k => pyIntOf (k.drop 4)
  let vs ← (is.insertionSort (· ≤ ·)).mapM (readElem rec f pk)
  .ok (.list vs)

/-- A member that is a group: analyzer.py:406-423. -/
def readGroup (rec : Str → PyM (List (Str × Val K))) (f : File K) (pk : Str) : PyM (Val K) := do
  let names ← groupKeys f (comps (pk ++ ['/']))
  match names with
  | [] => .error .indexError
  | k0 :: _ => if k0.take 4 = listText then readList rec f pk names else (rec (pk ++ ['/'])).map .dict

/-- One item of the loop, analyzer.py:397-425. -/
def readItem (rec : Str → PyM (List (Str × Val K))) (f : File K) (path key : Str) : PyM (Str × Val K) :=
  match nodeAt f (comps path ++ [key]) with
  | none => .error .keyError
  | some (.data s) => .ok (key, readData s)
  | some .group => (readGroup rec f (path ++ key)).map fun v => (key, v)

/-- `_group_to_dict`; `fuel` is the recursion limit of the interpreter. -/
def groupToDict : ℕ → File K → Str → PyM (List (Str × Val K))
  | 0, _, _ => .error .external
  | fuel + 1, f, path => do
    let names ← groupKeys f (comps path)
    names.mapM (readItem (groupToDict fuel f) f path)

/-! ## analyzer.py:33-67 `save`, `load` -/

/-- What a file name denotes. -/
inductive Content (K : Type)
  | hdf (f : File K)
  | foreign

/-- File system. -/
abbrev FS (K : Type) := Str → Option (Content K)

/-- `s.rsplit('.', 1)[0]`: the part before the last dot, everything if there is none. -/
def beforeLastDot (s : Str) : Str :=
  if '.' ∈ s then ((s.reverse.dropWhile (· ≠ '.')).drop 1).reverse else s

def hdfText : Str := k! ".hdf"

/-- `filename.rsplit('.', 1)[0] + '.hdf'`. -/
def target (name : Str) : Str := beforeLastDot name ++ hdfText

/-- Replacing the content of one file. -/
def setFile (fs : FS K) (t : Str) (c : Content K) : FS K := fun s => if s = t then some c else fs s

/-- The body of the `with` statement: all assignments in order, the file keeping what was written before an exception. -/
def writeDict (d : List (Str × Val K)) : File K × PyM Unit :=
  match hdfWriteAll [] (dictOps ['/'] d).1 with
  | (f, some e) => (f, .error e)
  | (f, none) => (f, match (dictOps ['/'] d).2 with
    | some e => .error e
    | none => .ok ())

/-- `save`, given the outcome of `to_dict`.  Afterwards: the file system and whether an exception was raised. -/
def save (fs : FS K) (name : Str) (d : PyM (List (Str × Val K))) : FS K × PyM Unit :=
  match d with
  | .error e => (fs, .error e)
  | .ok d =>
    if (fs (target name)).isSome then (fs, .error .valueError)
    else (setFile fs (target name) (.hdf (writeDict d).1), (writeDict d).2)

/-- `save` interrupted after `n` assignments (a crash, a full disk): the file holds what was assigned until then. -/
def tornSave (fs : FS K) (name : Str) (d : List (Str × Val K)) (n : ℕ) : FS K :=
  setFile fs (target name) (.hdf (hdfWriteAll [] ((dictOps ['/'] d).1.take n)).1)

/-- The first part of `load`: the dictionary in the file.  A missing file and a file that is not HDF5 are errors of h5py. -/
def readFile (limit : ℕ) (fs : FS K) (name : Str) : PyM (List (Str × Val K)) :=
  match fs (target name) with
  | some (.hdf f) => groupToDict limit f ['/']
  | _ => .error .external

/-! ## diffusion.py:54-177 `Bootstrap`: attributes, `to_dict`, `from_dict` -/

/-- Attributes of a `Bootstrap` object as Python values.  `D` is the type of `uravu` distributions.  (`_popt`, `_model_v` and
`_npd_covariance_matrix` appear only after a fit, are not saved and not used by any other method.) -/
structure PBoot (K D : Type) where
  displacements : Val K
  deltaT : Val K
  maxObs : Val K
  distributions : List D
  dt : Val K
  n : Val K
  s : Val K
  v : Val K
  nBoot : Val K
  sBoot : Val K
  vBoot : Val K
  nO : Val K
  ngp : Val K
  subSampleDt : Val K
  dimension : Val K
  euclid : List D
  diffusionCoefficient : Option D
  jumpDiffusionCoefficient : Option D
  sigma : Option D
  intercept : Option D
  gradient : Option D
  flatchain : Val K
  covariance : Val K
  axes : List (Fin 3)
  startDt : Val K
  dims : ℕ
  model : Val K
  condMax : Val K

/-- `to_dict` and `from_dict` of `uravu.distribution.Distribution`, not modelled. -/
structure DistLib (K D : Type) where
  toDict : D → List (Str × Val K)
  fromDict : Val K → PyM D

/-- `None` or the dictionary of a distribution. -/
def optDict {D : Type} (L : DistLib K D) : Option D → Val K
  | none => .null
  | some d => .dict (L.toDict d)

/-- diffusion.py:89-133 `Bootstrap.to_dict` (the items in order of insertion). -/
def bootToDict {D : Type} (L : DistLib K D) (b : PBoot K D) : List (Str × Val K) :=
  [(k! "displacements", b.displacements), (k! "delta_t", b.deltaT), (k! "n_o", b.nO), (k! "max_obs", b.maxObs),
   (k! "dt", b.dt), (k! "n", b.n), (k! "s", b.s), (k! "v", b.v), (k! "n_bootstrap", b.nBoot), (k! "s_bootstrap", b.sBoot),
   (k! "v_bootstrap", b.vBoot), (k! "sub_sample_dt", b.subSampleDt), (k! "dimension", b.dimension), (k! "ngp", b.ngp),
   (k! "covariance_matrix", b.covariance),
   (k! "distributions", if b.distributions.length ≠ 0 then .list (b.distributions.map fun d => .dict (L.toDict d)) else .null),
   (k! "diffusion_coefficient", optDict L b.diffusionCoefficient),
   (k! "jump_diffusion_coefficient", optDict L b.jumpDiffusionCoefficient), (k! "sigma", optDict L b.sigma),
   (k! "intercept", optDict L b.intercept), (k! "gradient", optDict L b.gradient), (k! "start_dt", b.startDt),
   (k! "model", b.model), (k! "cond_max", b.condMax),
   (k! "euclidian_displacements", .list (b.euclid.map fun d => .dict (L.toDict d))), (k! "flatchain", b.flatchain)]

/-- `my_dict[k]`: KeyError for a missing key; indexing a list (or None, …) by a string is a TypeError. -/
def item (v : Val K) (k : Str) : PyM (Val K) :=
  match v with
  | .dict e => match e.lookup k with
    | some v => .ok v
    | none => .error .keyError
  | _ => .error .typeError

/-- A slice step: `None` or an object with `__index__`. -/
def stepOf : Val K → PyM ℤ
  | .int z => .ok z
  | .npInt z => .ok z
  | .bool b => .ok (if b then 1 else 0)
  | .null => .ok 1
  | _ => .error .typeError

/-- `v[::step]` for a list or an array. -/
def valStride (step v : Val K) : PyM (Val K) := do
  let k ← stepOf step
  match v with
  | .list l => (pyStride k l).map .list
  | .arr (.d1 l) => (pyStride k l).map fun r => .arr (.d1 r)
  | .arr (.d2 l) => (pyStride k l).map fun r => .arr (.d2 r)
  | _ => .error .typeError

/-- `self._displacements[0].shape[1]`. -/
def firstObs : Val K → PyM (Val K)
  | .list [] => .error .indexError
  | .list (.arr (.d3 a) :: _) => .ok (.int a.n1)
  | .list (.arr (.d2 (r :: _)) :: _) => .ok (.int r.length)
  | _ => .error .external

/-- `DIMENSIONALITY[dimension.lower()]` and `len(dimension.lower())` for a `str` or `bytes` object. -/
def dimOf : Val K → PyM (List (Fin 3) × ℕ)
  | .str s => do
    let sel ← dimensionSlice (String.ofList s)
    .ok (sel.axes, dimensionDims (String.ofList s))
  | .bytes s => do
    let sel ← dimensionSlice (String.ofList s)
    .ok (sel.axes, dimensionDims (String.ofList s))
  | _ => .error .attributeError

/-- diffusion.py:54-87 `Bootstrap.__init__` on Python values. -/
def pBootInit {D : Type} (deltaT disp nO sub dimension : Val K) : PyM (PBoot K D) := do
  let ds ← valStride sub disp
  let dts ← valStride sub deltaT
  let m ← firstObs ds
  let dim ← dimOf dimension
  let empty : Val K := .arr (.d1 [])
  .ok { displacements := ds, deltaT := dts, maxObs := m, distributions := [], dt := empty, n := empty, s := empty, v := empty,
        nBoot := empty, sBoot := empty, vBoot := empty, nO := nO, ngp := empty, subSampleDt := sub, dimension := dimension,
        euclid := [], diffusionCoefficient := none, jumpDiffusionCoefficient := none, sigma := none, intercept := none,
        gradient := none, flatchain := .null, covariance := .null, axes := dim.1, startDt := .null, dims := dim.2,
        model := .null, condMax := .null }

/-- `[Distribution.from_dict(d) for d in v]`. -/
def distList {D : Type} (L : DistLib K D) : Val K → PyM (List D)
  | .list l => l.mapM L.fromDict
  | .null => .error .typeError
  | _ => .error .external

/-- `if v is not None: boot._distributions = [Distribution.from_dict(d) for d in v]`. -/
def distsOr {D : Type} (L : DistLib K D) (old : List D) : Val K → PyM (List D)
  | .null => .ok old
  | v => distList L v

/-- `None` stays the initial value, anything else is converted. -/
def optDist {D : Type} (L : DistLib K D) : Val K → PyM (Option D)
  | .null => .ok none
  | v => (L.fromDict v).map some

/-- The attributes that `from_dict` sets after calling the constructor, diffusion.py:149-177. -/
def restore {D : Type} (L : DistLib K D) (m : Val K) (b : PBoot K D) : PyM (PBoot K D) := do
  let maxObs ← item m (k! "max_obs")
  let euclid ← (item m (k! "euclidian_displacements")).bind (distList L)
  let dt ← item m (k! "dt")
  let n ← item m (k! "n")
  let s ← item m (k! "s")
  let v ← item m (k! "v")
  let nb ← item m (k! "n_bootstrap")
  let sb ← item m (k! "s_bootstrap")
  let vb ← item m (k! "v_bootstrap")
  let nO ← item m (k! "n_o")
  let ngp ← item m (k! "ngp")
  let dists ← (item m (k! "distributions")).bind (distsOr L b.distributions)
  let dc ← (item m (k! "diffusion_coefficient")).bind (optDist L)
  let jc ← (item m (k! "jump_diffusion_coefficient")).bind (optDist L)
  let sg ← (item m (k! "sigma")).bind (optDist L)
  let ic ← (item m (k! "intercept")).bind (optDist L)
  let gr ← (item m (k! "gradient")).bind (optDist L)
  let fc ← item m (k! "flatchain")
  let cov ← item m (k! "covariance_matrix")
  let st ← item m (k! "start_dt")
  let mo ← item m (k! "model")
  let cm ← item m (k! "cond_max")
  .ok { b with maxObs := maxObs, euclid := euclid, dt := dt, n := n, s := s, v := v, nBoot := nb, sBoot := sb, vBoot := vb,
               nO := nO, ngp := ngp, distributions := dists, diffusionCoefficient := dc, jumpDiffusionCoefficient := jc,
               sigma := sg, intercept := ic, gradient := gr, flatchain := fc, covariance := cov, startDt := st, model := mo,
               condMax := cm }

/-- diffusion.py:135-177 `Bootstrap.from_dict`. -/
def bootFromDict {D : Type} (L : DistLib K D) (m : Val K) : PyM (PBoot K D) := do
  let deltaT ← item m (k! "delta_t")
  let disp ← item m (k! "displacements")
  let nO ← item m (k! "n_o")
  let sub ← item m (k! "sub_sample_dt")
  let dim ← item m (k! "dimension")
  let b ← pBootInit deltaT disp nO sub dim
  restore L m b

/-- `MSCDBootstrap.from_dict`: the constructor, called with three positional arguments, misses `n_o`: TypeError once the five
items have been looked up.  diffusion.py:144-148, 723-736. -/
def mscdFromDict {D : Type} (L : DistLib K D) (m : Val K) : PyM (PBoot K D) := do
  let _ ← item m (k! "delta_t")
  let _ ← item m (k! "displacements")
  let _ ← item m (k! "n_o")
  let _ ← item m (k! "sub_sample_dt")
  let _ ← item m (k! "dimension")
  .error .typeError

/-! ## Analyzers -/

/-- Attributes of the three analyzers with a `Bootstrap` object. -/
structure PAnalyzer (K D : Type) where
  deltaT : Val K
  disp3d : Val K
  nO : Val K
  volume : Val K
  diff : PBoot K D

/-- analyzer.py:69-73 `Analyzer.to_dict`. -/
def baseToDict (deltaT disp3d nO volume : Val K) : List (Str × Val K) :=
  [(k! "delta_t", deltaT), (k! "disp_3d", disp3d), (k! "n_o", nO), (k! "volume", volume)]

/-- diffusion_analyzer.py:38-44, jump_diffusion_analyzer.py:38-44, conductivity_analyzer.py:40-46 `to_dict`. -/
def analyzerToDict {D : Type} (L : DistLib K D) (a : PAnalyzer K D) : List (Str × Val K) :=
  baseToDict a.deltaT a.disp3d a.nO a.volume ++ [(k! "diff", .dict (bootToDict L a.diff))]

/-- diffusion_analyzer.py:46-57, jump_diffusion_analyzer.py:46-57, conductivity_analyzer.py:48-59 `from_dict`. -/
def analyzerFromDict {D : Type} (L : DistLib K D) (m : Val K) : PyM (PAnalyzer K D) := do
  let deltaT ← item m (k! "delta_t")
  let disp ← item m (k! "disp_3d")
  let nO ← item m (k! "n_o")
  let vol ← item m (k! "volume")
  let d ← item m (k! "diff")
  let b ← bootFromDict L d
  .ok ⟨deltaT, disp, nO, vol, b⟩

/-- `load` of the three analyzers. -/
def loadAnalyzer {D : Type} (L : DistLib K D) (limit : ℕ) (fs : FS K) (name : Str) : PyM (PAnalyzer K D) := do
  let d ← readFile limit fs name
  analyzerFromDict L (.dict d)

/-- `save` of the three analyzers. -/
def saveAnalyzer {D : Type} (L : DistLib K D) (fs : FS K) (name : Str) (a : PAnalyzer K D) : FS K × PyM Unit :=
  save fs name (.ok (analyzerToDict L a))

/-- A one-dimensional array of finite floats. -/
def vec (l : List K) : Val K := .arr (.d1 (l.map some))

/-- `None` or a float. -/
def optFloat : Option K → Val K
  | none => .null
  | some x => .float (some x)

/-- The attributes of a `Bootstrap` object that the constructors and `bootstrap_GLS` have set; `mk` makes a distribution from its
samples. -/
def ofBoot {D : Type} (mk : List K → D) (b : Boot K) : PBoot K D :=
  { displacements := .list (b.displacements.map fun a => .arr (.d3 a)), deltaT := vec b.deltaT, maxObs := .int b.maxObs,
    distributions := b.distributions.map mk, dt := vec b.dt, n := vec b.n, s := .arr (.d1 b.s), v := .arr (.d1 b.v),
    nBoot := .arr (.d1 b.nBoot), sBoot := .arr (.d1 b.sBoot), vBoot := .arr (.d1 b.vBoot), nO := vec b.nO,
    ngp := .arr (.d1 b.ngp), subSampleDt := .int b.subSampleDt, dimension := .str b.dimension.toList,
    euclid := b.euclid.map mk, diffusionCoefficient := b.diffusionCoefficient.map mk,
    jumpDiffusionCoefficient := b.jumpDiffusionCoefficient.map mk, sigma := b.sigma.map mk, intercept := b.intercept.map mk,
    gradient := b.gradient.map mk,
    flatchain := match b.flatchain with
      | none => .null
      | some m => .arr (.d2 (m.map fun r => r.map some)),
    covariance := match b.covariance with
      | none => .null
      | some m => .arr (.d2 m),
    axes := b.axes, startDt := optFloat b.startDt, dims := b.dims,
    model := match b.model with
      | none => .null
      | some m => .bool m,
    condMax := optFloat b.condMax }

/-- The attributes of an analyzer. -/
def ofAnalyzer {D : Type} (mk : List K → D) (a : Analyzer K) : PAnalyzer K D :=
  { deltaT := vec a.deltaT, disp3d := .list (a.disp3d.map fun d => .arr (.d3 d)), nO := vec a.nO, volume := optFloat a.volume,
    diff := ofBoot mk a.diff }

/-- `Analyzer.from_dict`, `cls(**my_dict)`: any missing or additional key is a TypeError.  analyzer.py:75-84, 22-31. -/
def baseFromDict (m : List (Str × Val K)) : PyM (Val K × Val K × Val K × Val K) :=
  match m.lookup (k! "delta_t"), m.lookup (k! "disp_3d"), m.lookup (k! "n_o"), m.lookup (k! "volume") with
  | some a, some b, some c, some d =>
    if m.all fun x => [k! "delta_t", k! "disp_3d", k! "n_o", k! "volume"].contains x.1 then .ok (a, b, c, d) else .error .typeError
  | _, _, _, _ => .error .typeError

/-- `load` of the base class. -/
def loadBase (limit : ℕ) (fs : FS K) (name : Str) : PyM (Val K × Val K × Val K × Val K) := do
  let d ← readFile limit fs name
  baseFromDict d

/-- The three analyzers with a `Bootstrap` object. -/
inductive AnalyzerClass
  | diffusion
  | jump
  | conductivity
  deriving DecidableEq, Repr

/-- An analyzer: its class and its attributes. -/
structure AnalyzerObj (K D : Type) where
  cls : AnalyzerClass
  attrs : PAnalyzer K D

/-- The property that returns the curve: diffusion_analyzer.py:219, jump_diffusion_analyzer.py:222, conductivity_analyzer.py:240. -/
def AnalyzerClass.curveName : AnalyzerClass → String
  | .diffusion => "msd"
  | .jump => "mstd"
  | .conductivity => "mscd"

/-- Reading `msd`, `mstd` or `mscd`: diffusion_analyzer.py:224, jump_diffusion_analyzer.py:227, conductivity_analyzer.py:245. -/
def AnalyzerObj.curve {D : Type} (o : AnalyzerObj K D) (name : String) : PyM (Val K) :=
  if name = o.cls.curveName then .ok o.attrs.diff.n else .error .attributeError

/-- `save`, inherited by the three classes (analyzer.py:33-49): the class is not among what is written. -/
def AnalyzerObj.save {D : Type} (L : DistLib K D) (fs : FS K) (name : Str) (o : AnalyzerObj K D) : FS K × PyM Unit := saveAnalyzer L fs name o.attrs

/-- `cls.load`, inherited by the three classes (analyzer.py:51-67). -/
def AnalyzerClass.load {D : Type} (cls : AnalyzerClass) (L : DistLib K D) (limit : ℕ) (fs : FS K) (name : Str) : PyM (AnalyzerObj K D) := do
  let a ← loadAnalyzer L limit fs name
  .ok ⟨cls, a⟩

/-! ## `from_dict` of the derived classes (diffusion.py:135-177 with `cls` one of `MSDBootstrap`, `MSTDBootstrap`)

The constructor of the class is run again on the saved data with default options, then the saved attributes are set. -/

section Derived
variable [Field K] [LinearOrder K] [IsStrictOrderedRing K] [FloorRing K] {G : Type}

/-- diffusion.py:149-177 on typed attributes: everything saved is taken from `saved`; `displacements`, `delta_t`, `sub_sample_dt`,
`dimension`, the slice, `dims` and the private results of a fit are those of the new object. -/
def restoreBoot (saved fresh : Boot K) : Boot K :=
  { saved with displacements := fresh.displacements, deltaT := fresh.deltaT, subSampleDt := fresh.subSampleDt,
               dimension := fresh.dimension, axes := fresh.axes, dims := fresh.dims, popt := fresh.popt, modelV := fresh.modelV,
               npdCovariance := fresh.npdCovariance }

/-- `MSDBootstrap.from_dict(b.to_dict())`. -/
def msdReload (sq : K → K) (o : Oracle K G) (alpha : K) (g : G) (b : Boot K) : PyM (Boot K) := do
  let (f, _) ← msdBootstrap sq o { alpha := alpha } g b.deltaT b.displacements b.nO b.subSampleDt b.dimension
  .ok (restoreBoot b f)

/-- `MSTDBootstrap.from_dict(b.to_dict())`. -/
def mstdReload (sq : K → K) (o : Oracle K G) (alpha : K) (g : G) (b : Boot K) : PyM (Boot K) := do
  let (f, _) ← mstdBootstrap sq o { alpha := alpha } g b.deltaT b.displacements b.nO b.subSampleDt b.dimension
  .ok (restoreBoot b f)

end Derived

/-! ## Several processes saving at the same time -/

/-- One process inside `save` after `to_dict`: it first tests whether the file exists (analyzer.py:46-47), later opens the file
with mode `'w'`, which truncates, and writes it (analyzer.py:48-49). -/
structure Saver (K : Type) where
  name : Str
  doc : List (Str × Val K)
  phase : ℕ := 0
  outcome : Option (PyM Unit) := none

/-- The next step of one process. -/
def Saver.step (fs : FS K) (p : Saver K) : FS K × Saver K :=
  match p.phase with
  | 0 => if (fs (target p.name)).isSome then (fs, { p with phase := 2, outcome := some (.error .valueError) })
         else (fs, { p with phase := 1 })
  | 1 => (setFile fs (target p.name) (.hdf (writeDict p.doc).1), { p with phase := 2, outcome := some (writeDict p.doc).2 })
  | _ => (fs, p)

/-- A schedule: the processes that make a step, in order. -/
def runSavers : FS K → List (Saver K) → List ℕ → FS K × List (Saver K)
  | fs, ps, [] => (fs, ps)
  | fs, ps, i :: is =>
    match ps[i]? with
    | none => runSavers fs ps is
    | some p => runSavers (p.step fs).1 (ps.set i (p.step fs).2) is

end Kinisi
