import Verif.Lemmas.Bystanders

/-!
# C115: atoms that are neither analysed nor framework do not matter
-/

set_option linter.unusedSectionVars false
set_option linter.unusedVariables false

namespace Kinisi
open Spec
variable {K : Type} [Field K] [LinearOrder K] [IsStrictOrderedRing K] [FloorRing K] {G : Type}

/-- **C115.** Two trajectories (any cells, any format, every `k`-th frame) in which the analysed atoms and the framework atoms are at the same places
give the same result of every analyzer, or the same exception, wherever the other atoms are. -/
theorem C115_atoms (E : Num K) (P : Params K) (S : Select K) (sy : List String) (atoms fw : List ℕ) (hS : Picks S sy atoms fw) (k F : ℕ) (hk : 0 < k)
    (C : ℕ → M3 K) (V : ℕ → K) (s s' : ℕ → ℕ → V3 K) (hs : ∀ i ∈ atoms ++ fw, ∀ j, s i j = s' i j) (base base' : PyM (Base K))
    (hb : ReadBoth E P S k F sy C C V V s s' base base') (sq : K → K) (o : Oracle K G) (U : UncParams K) (q : Charge K) (g : G) :
    (diffusionAnalyzer sq o g U base).map clipResult = (diffusionAnalyzer sq o g U base').map clipResult ∧
    (jumpAnalyzer sq o g U base).map clipResult = (jumpAnalyzer sq o g U base').map clipResult ∧
    (conductivityAnalyzer sq o g U q base).map clipResult = (conductivityAnalyzer sq o g U q base').map clipResult := by
  have h := base_same hk (build_picks (E := E) hS hs) hb
  simp only [diffusion_clip, jump_clip, conductivity_clip, h, and_self]

/-- **C115 (molecules).** The same for centres of molecules relative to framework atoms that are named; `mols` and `fw` are the numbers of the atoms,
from 0, and the arguments name them from 1. -/
theorem C115_molecules (E : Num K) (P : Params K) (S : Select K) (sy : List String) (mols : List (List ℕ)) (fw : List ℕ) (isTuple : Bool) (hn : S.specie = none)
    (hm : S.specieIdx = .mols (mols.map fun m => m.map fun a : ℕ => ((a : ℤ) + 1)))
    (hf : S.framework = some ⟨isTuple, fw.map fun a : ℕ => ((a : ℤ) + 1)⟩) (k F : ℕ) (hk : 0 < k)
    (C : ℕ → M3 K) (V : ℕ → K) (s s' : ℕ → ℕ → V3 K) (hs : ∀ i ∈ mols.flatten ++ fw, ∀ j, s i j = s' i j) (base base' : PyM (Base K))
    (hb : ReadBoth E P S k F sy C C V V s s' base base') (sq : K → K) (o : Oracle K G) (U : UncParams K) (q : Charge K) (g : G) :
    (diffusionAnalyzer sq o g U base).map clipResult = (diffusionAnalyzer sq o g U base').map clipResult ∧
    (jumpAnalyzer sq o g U base).map clipResult = (jumpAnalyzer sq o g U base').map clipResult ∧
    (conductivityAnalyzer sq o g U q base).map clipResult = (conductivityAnalyzer sq o g U q base').map clipResult := by
  have h := base_same hk (build_molecules (E := E) hn hm hf hs) hb
  simp only [diffusion_clip, jump_clip, conductivity_clip, h, and_self]

/-- Two Li atoms and an O atom at rest in the box; the fourth atom is where `x` says. -/
def exGuest (x : V3 ℚ) : ℕ → ℕ → V3 ℚ := fun i j => if i = 0 then ![(j : ℚ) ^ 2 / 50, 0, 0] else if i = 3 then fun l => (j : ℚ) * x l else fun _ => 1 / 2

/-- Li atoms relative to the O atom, and one Li-Li molecule relative to the O atom; the Cl atom may move as it likes. -/
example (x : V3 ℚ) (U : UncParams ℚ) :
    (diffusionAnalyzer id (exOracle ℚ) () U (fromAse exNum exParams ⟨some ["Li"], .none, none, some ⟨false, [2]⟩⟩ 1 none (.one
      (cellFrames 5 ["Li", "Li", "O", "Cl"] (fun _ => exBox) (fun _ => 1000) (exGuest x))))).map clipResult =
    (diffusionAnalyzer id (exOracle ℚ) () U (fromAse exNum exParams ⟨some ["Li"], .none, none, some ⟨false, [2]⟩⟩ 1 none (.one
      (cellFrames 5 ["Li", "Li", "O", "Cl"] (fun _ => exBox) (fun _ => 1000) (exGuest 0))))).map clipResult ∧
    (diffusionAnalyzer id (exOracle ℚ) () U (fromAse exNum exParams ⟨none, .mols [[1, 2]], none, some ⟨false, [3]⟩⟩ 1 none (.one
      (cellFrames 5 ["Li", "Li", "O", "Cl"] (fun _ => exBox) (fun _ => 1000) (exGuest x))))).map clipResult =
    (diffusionAnalyzer id (exOracle ℚ) () U (fromAse exNum exParams ⟨none, .mols [[1, 2]], none, some ⟨false, [3]⟩⟩ 1 none (.one
      (cellFrames 5 ["Li", "Li", "O", "Cl"] (fun _ => exBox) (fun _ => 1000) (exGuest 0))))).map clipResult := by
  constructor
  · refine (C115_atoms exNum exParams _ ["Li", "Li", "O", "Cl"] [0, 1] [2] (.framework ["Li"] [2] false rfl rfl (by decide)) 1 5 (by norm_num) (fun _ => exBox)
      (fun _ => 1000) _ _ ?_ _ _ (.inl ⟨rfl, rfl⟩) id (exOracle ℚ) U (.scalar 1) ()).1
    intro i hi j
    simp only [List.mem_append, List.mem_cons, List.not_mem_nil, or_false] at hi
    rcases hi with (rfl | rfl) | rfl <;> simp [exGuest]
  · refine (C115_molecules exNum exParams _ ["Li", "Li", "O", "Cl"] [[0, 1]] [2] false rfl rfl rfl 1 5 (by norm_num) (fun _ => exBox)
      (fun _ => 1000) _ _ ?_ _ _ (.inl ⟨rfl, rfl⟩) id (exOracle ℚ) U (.scalar 1) ()).1
    intro i hi j
    simp only [List.flatten_cons, List.flatten_nil, List.append_nil, List.mem_append, List.mem_cons, List.not_mem_nil, or_false] at hi
    rcases hi with (rfl | rfl) | rfl <;> simp [exGuest]

end Kinisi
