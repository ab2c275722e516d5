import Verif.Model.Analyzer

/-!
# Specification vocabulary for the choice of the time intervals (of the model only the entry points, their arguments and the recorded arrays)
-/

namespace Kinisi.Spec
variable {K : Type} [Field K] [LinearOrder K] [IsStrictOrderedRing K] [FloorRing K]

/-- What a user may choose about the intervals that are looked at, and the memory they may take. -/
structure Grid (K : Type) where
  minDt : Option K
  maxDt : Option K
  nSteps : ℤ
  spacing : String
  memoryLimit : K

/-- The parameters `P` with the intervals chosen by `γ`. -/
def onGrid (P : Params K) (γ : Grid K) : Params K :=
  { P with minDt := γ.minDt, maxDt := γ.maxDt, nSteps := γ.nSteps, spacing := γ.spacing, memoryLimit := γ.memoryLimit }

/-- The analysis of one trajectory, as a function of the chosen intervals: any file format and selection of atoms. -/
inductive ReadsGrid (E : Num K) (P : Params K) (S : Select K) : (Grid K → PyM (Base K)) → Prop
  | ase (k : ℤ) (fr : List (Frame K)) : ReadsGrid E P S fun γ => fromAse E (onGrid P γ) S k none (.one fr)
  | pymatgen (k : ℤ) (fr : List (Frame K)) : ReadsGrid E P S fun γ => fromPymatgen E (onGrid P γ) S k none (.one fr)
  | xdatcar {X : Type} (structures : X → List (Frame K)) (k : ℤ) (x : X) :
      ReadsGrid E P S fun γ => fromXdatcar structures E (onGrid P γ) S k none (.one x)
  | file (read : String → PyM (List (Frame K))) (k : ℤ) (name : String) : ReadsGrid E P S fun γ => fromFile read E (onGrid P γ) S k none (.one name)
  | mda (subAtoms k : ℤ) (types : List String) (fr : List (MdaFrame K)) :
      ReadsGrid E P S fun γ => fromUniverse E (onGrid P γ) S subAtoms k none (.one (types, fr))

/-- Entry `i` of one result and entry `j` of another agree in the estimate, the non-Gaussian parameter and the distances. -/
structure SameEntry (i j : ℕ) (b b' : Boot K) : Prop where
  estimate : ∃ m, b.n[i]? = some m ∧ b'.n[j]? = some m
  ngp : ∃ x, b.ngp[i]? = some x ∧ b'.ngp[j]? = some x
  distances : ∃ l, b.euclid[i]? = some l ∧ b'.euclid[j]? = some l

/-- Two results agree wherever both have an entry for the same time.  The variances agree with blocking; without blocking they are in the ratio of the
longest times looked at (`span`). -/
def SameAtTimes (block : Bool) (analytic : Prop) (span span' : K) (b b' : Boot K) : Prop :=
  ∀ (i j : ℕ) (t : K), b.dt[i]? = some t → b'.dt[j]? = some t → SameEntry i j b b' ∧
    (block = true → ∃ x, b.v[i]? = some x ∧ b'.v[j]? = some x) ∧
    (block = false → analytic → span ≠ 0 ∧ span' ≠ 0 ∧ ∃ x : K, b.v[i]? = some (some (x / span)) ∧ b'.v[j]? = some (some (x / span')))

end Kinisi.Spec
