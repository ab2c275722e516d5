import Verif.Model.Analyzer

/-!
# Specification vocabulary for analysing several species (of the model only the entry points and their arguments)
-/

namespace Kinisi.Spec
variable {K : Type} [Field K] [LinearOrder K] [IsStrictOrderedRing K] [FloorRing K]

/-- The analysis of one trajectory, as a function of the chosen atoms: any file format, every frame with the symbols `sy` (for MDAnalysis those of every
`subAtoms`-th atom). -/
inductive Reads (E : Num K) (P : Params K) (sy : List String) : (Select K → PyM (Base K)) → Prop
  | ase (k : ℤ) (fr : List (Frame K)) (h : ∀ f ∈ fr, f.symbols = sy) : Reads E P sy fun S => fromAse E P S k none (.one fr)
  | pymatgen (k : ℤ) (fr : List (Frame K)) (h : ∀ f ∈ fr, f.symbols = sy) : Reads E P sy fun S => fromPymatgen E P S k none (.one fr)
  | xdatcar {X : Type} (structures : X → List (Frame K)) (k : ℤ) (x : X) (h : ∀ f ∈ structures x, f.symbols = sy) :
      Reads E P sy fun S => fromXdatcar structures E P S k none (.one x)
  | file (read : String → PyM (List (Frame K))) (k : ℤ) (name : String) (h : ∀ fr, read name = .ok fr → ∀ f ∈ fr, f.symbols = sy) :
      Reads E P sy fun S => fromFile read E P S k none (.one name)
  | mda (subAtoms k : ℤ) (types : List String) (fr : List (MdaFrame K)) (h : pyStride subAtoms types = .ok sy) :
      Reads E P sy fun S => fromUniverse E P S subAtoms k none (.one (types, fr))

/-- The same options, with the species `sp`. -/
def withSpecies (S : Select K) (sp : List String) : Select K := { S with specie := some sp }

end Kinisi.Spec
