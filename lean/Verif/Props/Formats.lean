import Verif.Props.CellChoice
import Verif.Props.Symmetry
import Verif.Props.TimesFl

/-!
# C117: the file format does not matter
-/

set_option linter.unusedSectionVars false
set_option linter.unusedVariables false

namespace Kinisi
open Spec
variable {K : Type} [Field K] [LinearOrder K] [IsStrictOrderedRing K] [FloorRing K] {G : Type}

/-- The arguments for a reader that expects times in femtoseconds: `fs` is the time step, the bounds of the intervals are multiplied by 1000. -/
def inFemto (P : Params K) (fs : PyNum K) : Params K :=
  { P with timeStep := fs, minDt := P.minDt.map (1000 * ·), maxDt := P.maxDt.map (1000 * ·) }

/-- One trajectory of `F` frames (cells `C`, volumes `V`, fractional coordinates `s`), of which every `k`-th is used, given to one of the five class
methods.  `from_universe` gets the arguments `P`; the readers based on pymatgen get the same arguments in femtoseconds; `from_ase` gets `ss` for
`step_skip`. -/
def Told (E : Num K) (P : Params K) (ss fs : PyNum K) (S : Select K) (k F : ℕ) (sy : List String) (C : ℕ → M3 K) (V : ℕ → K) (s : ℕ → ℕ → V3 K)
    (base : PyM (Base K)) : Prop :=
  base = fromUniverse E P S 1 k none (.one (cellUniverse F sy C V s)) ∨
  base = fromAse E { P with stepSkip := ss } S k none (.one (cellFrames F sy C V s)) ∨
  base = fromPymatgen E (inFemto P fs) S k none (.one (cellFrames F sy C V s)) ∨
  (∃ (X : Type) (structures : X → List (Frame K)) (x : X), structures x = cellFrames F sy C V s ∧
    base = fromXdatcar structures E (inFemto P fs) S k none (.one x)) ∨
  ∃ (read : String → PyM (List (Frame K))) (name : String), read name = .ok (cellFrames F sy C V s) ∧
    base = fromFile read E (inFemto P fs) S k none (.one name)

theorem map_eq_cases₂ {α α' β : Type} {f : α → β} {g : α' → β} {x : PyM α} {y : PyM α'} (h : x.map f = y.map g) :
    (∃ e, x = .error e ∧ y = .error e) ∨ ∃ a b, x = .ok a ∧ y = .ok b ∧ f a = g b := by
  cases x with
  | error e =>
    cases y with
    | error e' => left; exact ⟨e, rfl, by cases h; rfl⟩
    | ok b => cases h
  | ok a =>
    cases y with
    | error e' => cases h
    | ok b => right; exact ⟨a, b, rfl, rfl, Except.ok.inj h⟩

theorem mul_one_id (a : PyNum K) : a.mul id (.int 1) = a := by
  cases a <;> simp [PyNum.mul, PyNum.val]

theorem isInt_mul_int (fl : K → K) (a : PyNum K) (z : ℤ) : (a.mul fl (.int z)).isInt = a.isInt := by
  cases a <;> rfl

/-- In exact arithmetic a parser that is told femtoseconds finds the same displacements, at times that are 1000 times as large. -/
theorem parserInit_femto {E : Num K} (hE : E.fl = id) {P Q : Params K} {k : K} (hk : k ≠ 0) (hQ : Q = { P with timeStep := Q.timeStep, minDt := P.minDt.map (k * ·), maxDt := P.maxDt.map (k * ·) })
    (ht : Q.timeStep.val = k * P.timeStep.val) (w : Bool) (disp : Arr3 K) (sel : Selection) :
    (parserInit E Q w disp sel).map (fun r => (r.deltaT, r.disp3d, r.nO)) =
      (parserInit E P w disp sel).map fun r => (r.deltaT.map (k * ·), r.disp3d, r.nO) := by
  obtain ⟨q1, q2, q3, q4, q5, q6, q7, q8, q9⟩ := Q
  simp only [Params.mk.injEq, true_and] at hQ
  obtain ⟨rfl, rfl, rfl, rfl, rfl, rfl, rfl, rfl⟩ := hQ
  dsimp only at ht
  unfold parserInit
  dsimp only
  rw [hE]
  cases correctDriftSeq sel.drift disp with
  | error e => rfl
  | ok dc =>
  simp only [bind, Except.bind]
  rw [intervals_scale (ts := P.timeStep) (ss := P.stepSkip) hk (by rw [ht]; ring)]
  cases initTimeIntervals id E.geo dc.n1 P.timeStep P.stepSkip P.minDt P.maxDt P.nSteps P.spacing with
  | error e => rfl
  | ok ti =>
  dsimp only
  unfold getDisps
  simp only [bind, Except.bind]
  cases checkRows ti sel.indices dc.n0 with
  | error e => rfl
  | ok rows =>
  dsimp only
  split_ifs
  · rfl
  · cases ti.zipIdx.mapM (oneInterval id sel.indices P.sampling (ti.getLastD 0) dc) with
    | error e => rfl
    | ok r =>
      simp only [Except.map, List.map_map, Except.ok.injEq, Prod.mk.injEq, and_true]
      apply List.map_congr_left
      intro τ _
      simp only [Function.comp, deltaTOf, PyNum.val_mul_id, ht]
      ring

/-- What every reader arrives at: the frames that are used, with the time between them. -/
def canonical (E : Num K) (P : Params K) (S : Select K) (k F : ℕ) (sy : List String) (C : ℕ → M3 K) (V : ℕ → K) (s : ℕ → ℕ → V3 K) : PyM (Base K) :=
  (structureCoordsLatt (cellFrames ((F + k - 1) / k) sy (fun j => C (k * j)) (fun j => V (k * j)) fun i j => s i (k * j)) >>= fun p =>
    buildParser E { P with stepSkip := P.stepSkip.mul E.fl (.int k) } S p.1 p.2.1 p.2.2).map baseOf

theorem ase_canonical (E : Num K) (P : Params K) (S : Select K) {k F : ℕ} (hk : 0 < k) (sy : List String) (C : ℕ → M3 K) (V : ℕ → K) (s : ℕ → ℕ → V3 K) :
    fromAse E { P with stepSkip := P.stepSkip.mul E.fl (.int k) } S k none (.one (cellFrames F sy C V s)) = canonical E P S k F sy C V s := by
  simp only [fromAse, analyzerFrom, Traj.asOne, aseParser, thin_frames hk, bind, Except.bind, canonical]
  cases structureCoordsLatt (cellFrames ((F + k - 1) / k) sy (fun j => C (k * j)) (fun j => V (k * j)) fun i j => s i (k * j)) with
  | error e => rfl
  | ok p =>
    dsimp only
    cases buildParser E { P with stepSkip := P.stepSkip.mul E.fl (.int k) } S p.1 p.2.1 p.2.2 <;> rfl

theorem used_lt {k F j : ℕ} (hk : 0 < k) (hj : j < (F + k - 1) / k) : k * j < F := by
  have h3 : (j + 1) * k ≤ F + k - 1 := (Nat.le_div_iff_mul_le hk).mp hj
  have h4 : (j + 1) * k = k * j + k := by ring
  omega

theorem universe_canonical (E : Num K) (P : Params K) (S : Select K) {k F : ℕ} (hk : 0 < k) (sy : List String) (C : ℕ → M3 K)
    (hC : ∀ j, k * j < F → NonSingular (C (k * j))) (V : ℕ → K) (s : ℕ → ℕ → V3 K) :
    fromUniverse E P S 1 k none (.one (cellUniverse F sy C V s)) = canonical E P S k F sy C V s := by
  simp only [fromUniverse, analyzerFrom, Traj.asOne, mdaParser, thin_universe hk, bind, Except.bind, ne_eq, not_true_eq_false, decide_false, Bool.false_and,
    Bool.false_eq_true, if_false, canonical]
  have u1 := universe_reads (F := (F + k - 1) / k) (sy := sy) (C := fun j => C (k * j)) (fun j hj => hC j (used_lt hk hj)) (V := fun j => V (k * j)) (s := fun i j => s i (k * j))
  rw [show (cellUniverse F sy C V s).1 = sy from rfl, u1]
  dsimp only
  cases structureCoordsLatt (cellFrames ((F + k - 1) / k) sy (fun j => C (k * j)) (fun j => V (k * j)) fun i j => s i (k * j)) with
  | error e => rfl
  | ok p =>
    dsimp only
    cases buildParser E { P with stepSkip := P.stepSkip.mul E.fl (.int k) } S p.1 p.2.1 p.2.2 <;> rfl

theorem pymatgen_canonical {E : Num K} (hE : E.fl = id) (P : Params K) {fs : PyNum K} (hfs : fs.val = 1000 * P.timeStep.val)
    (hi : (fs.isInt && P.stepSkip.isInt) = false) (S : Select K) {k F : ℕ} (hk : 0 < k) (sy : List String) (C : ℕ → M3 K) (V : ℕ → K) (s : ℕ → ℕ → V3 K) :
    (pymatgenParser E (inFemto P fs) S k (cellFrames F sy C V s)).map baseOf = canonical E P S k F sy C V s := by
  simp only [pymatgenParser, thin_frames hk, bind, Except.bind, canonical]
  cases structureCoordsLatt (cellFrames ((F + k - 1) / k) sy (fun j => C (k * j)) (fun j => V (k * j)) fun i j => s i (k * j)) with
  | error e => rfl
  | ok p =>
  dsimp only
  unfold buildParser
  simp only [bind, Except.bind]
  cases selectAtoms E.trig p.1.symbols p.2.1 S with
  | error e => rfl
  | ok x =>
  dsimp only
  cases getDisp x.1 p.2.2 with
  | error e => rfl
  | ok y =>
  dsimp only
  have hp := parserInit_femto hE (P := { P with stepSkip := P.stepSkip.mul E.fl (.int k) })
    (Q := { inFemto P fs with stepSkip := (inFemto P fs).stepSkip.mul E.fl (.int k) }) (k := 1000) (by norm_num) rfl hfs y.1 y.2 x.2
  have hd : ∀ r, parserInit E { inFemto P fs with stepSkip := (inFemto P fs).stepSkip.mul E.fl (.int k) } y.1 y.2 x.2 = .ok r → r.deltaInt = false := by
    intro r hr
    unfold parserInit at hr
    simp only [bind, Except.bind] at hr
    repeat' split at hr
    all_goals cases hr
    dsimp only
    rw [isInt_mul_int]
    exact hi
  rcases map_eq_cases₂ hp with ⟨e, e1, e2⟩ | ⟨r, r', e1, e2, hr⟩
  · rw [e1, e2]
  · have := hd r e1
    rw [e1, e2]
    obtain ⟨r1, r2⟩ := Prod.mk.inj hr
    obtain ⟨r2, r3⟩ := Prod.mk.inj r2
    dsimp only at r1 r2 r3 ⊢
    simp only [this, Bool.false_eq_true, if_false, Except.map, baseOf, r1, r2, r3, hE, id, List.map_map, Function.comp_def]
    congr 2
    conv_rhs => rw [← List.map_id r'.deltaT]
    apply List.map_congr_left
    intro t _
    simp only [id]
    norm_num
    ring

theorem told_canonical {E : Num K} (hE : E.fl = id) {P : Params K} {ss fs : PyNum K} {S : Select K} {k F : ℕ} (hk : 0 < k) (hfs : fs.val = 1000 * P.timeStep.val)
    (hi : (fs.isInt && P.stepSkip.isInt) = false) (hss : k = 1 ∧ ss = P.stepSkip ∨ ss = P.stepSkip.mul id (.int k)) {sy : List String} {C : ℕ → M3 K}
    (hC : ∀ j, k * j < F → NonSingular (C (k * j))) {V : ℕ → K} {s : ℕ → ℕ → V3 K} {base : PyM (Base K)} (hb : Told E P ss fs S k F sy C V s base) :
    base = canonical E P S k F sy C V s := by
  have hss' : ss = P.stepSkip.mul E.fl (.int k) := by
    rw [hE]
    rcases hss with ⟨rfl, rfl⟩ | h
    · exact (mul_one_id _).symm
    · exact h
  have hp := pymatgen_canonical hE P hfs hi S hk (F := F) sy C V s
  have hmap : ∀ x : PyM (Parsed K), (x >>= fun u => Except.ok (baseOf u)) = x.map baseOf := by
    intro x
    cases x <;> rfl
  rcases hb with rfl | rfl | rfl | ⟨X, st, x, hx, rfl⟩ | ⟨read, name, hx, rfl⟩
  · exact universe_canonical E P S hk sy C hC V s
  · rw [hss']
    exact ase_canonical E P S hk sy C V s
  · rw [← hp, ← hmap]
    rfl
  · rw [← hp, ← hmap, ← hx]
    rfl
  · rw [← hp, ← hmap]
    unfold fromFile analyzerFrom Traj.asOne
    simp only [bind, Except.bind, hx]

/-- **C117, what holds.** One motion `x` is available in two of the five supported forms, with any cells and images that describe it (steps within half
of the cell).  In exact arithmetic, and given the time step in the unit that the reader documents (`fs` in femtoseconds for the readers based on
pymatgen, not both an `int` and with an `int` for `step_skip`), all attributes of the three analyzers and the exceptions are the same.  For `from_ase`
this needs every frame to be used, or `step_skip` to be multiplied with `sub_sample_traj` by the user: see `C117_violated`. -/
theorem C117_partial (E : Num K) (hE : E.fl = id) (P : Params K) (ss fs : PyNum K) (S : Select K) (hS : NoMolecules S) (k F : ℕ) (hk : 0 < k) (hF : 0 < F)
    (hfs : fs.val = 1000 * P.timeStep.val) (hi : (fs.isInt && P.stepSkip.isInt) = false)
    (hss : k = 1 ∧ ss = P.stepSkip ∨ ss = P.stepSkip.mul id (.int k)) (sy : List String) (C C' : ℕ → M3 K)
    (hC : ∀ j, k * j < F → NonSingular (C (k * j))) (hC' : ∀ j, k * j < F → NonSingular (C' (k * j))) (V V' : ℕ → K) (hV : V 0 = V' 0) (s s' x : ℕ → ℕ → V3 K)
    (hs : StoredIn ((F + k - 1) / k) sy.length (fun j => C (k * j)) (fun i j => s i (k * j)) (fun i j => x i (k * j)))
    (hs' : StoredIn ((F + k - 1) / k) sy.length (fun j => C' (k * j)) (fun i j => s' i (k * j)) (fun i j => x i (k * j))) (base base' : PyM (Base K))
    (hb : Told E P ss fs S k F sy C V s base) (hb' : Told E P ss fs S k F sy C' V' s' base') (sq : K → K) (o : Oracle K G) (U : UncParams K) (q : Charge K) (g : G) :
    (diffusionAnalyzer sq o g U base).map clipResult = (diffusionAnalyzer sq o g U base').map clipResult ∧
    (jumpAnalyzer sq o g U base).map clipResult = (jumpAnalyzer sq o g U base').map clipResult ∧
    (conductivityAnalyzer sq o g U q base).map clipResult = (conductivityAnalyzer sq o g U q base').map clipResult := by
  rw [told_canonical hE hk hfs hi hss hC hb, told_canonical hE hk hfs hi hss hC' hb', ← universe_canonical E P S hk sy C hC V s,
    ← universe_canonical E P S hk sy C' hC' V' s']
  exact C114_partial E P S hS sy k F hk hF C C' hC hC' V V' hV s s' x hs hs' _ _ (.inr (.inr ⟨rfl, rfl⟩)) sq o U q g

/-- **C117, what holds (molecules).** With the same cells and fractional coordinates every selection may be used, also centres of molecules, and the
steps may have any length: the analyzer is built from the same object, whatever the format. -/
theorem C117_molecules_partial (E : Num K) (hE : E.fl = id) (P : Params K) (ss fs : PyNum K) (S : Select K) (k F : ℕ) (hk : 0 < k)
    (hfs : fs.val = 1000 * P.timeStep.val) (hi : (fs.isInt && P.stepSkip.isInt) = false)
    (hss : k = 1 ∧ ss = P.stepSkip ∨ ss = P.stepSkip.mul id (.int k)) (sy : List String) (C : ℕ → M3 K)
    (hC : ∀ j, k * j < F → NonSingular (C (k * j))) (V : ℕ → K) (s : ℕ → ℕ → V3 K) (base base' : PyM (Base K))
    (hb : Told E P ss fs S k F sy C V s base) (hb' : Told E P ss fs S k F sy C V s base') : base = base' :=
  (told_canonical hE hk hfs hi hss hC hb).trans (told_canonical hE hk hfs hi hss hC hb').symm

/-- **C117, what holds (floating point).** `from_ase` and `from_universe`, both in picoseconds, agree exactly also in floating point arithmetic
(the conversion of Cartesian to fractional coordinates being exact), if `step_skip` is multiplied as in `from_universe`. -/
theorem C117_floating_partial (E : Num K) (P : Params K) (S : Select K) (k F : ℕ) (hk : 0 < k) (sy : List String) (C : ℕ → M3 K)
    (hC : ∀ j, k * j < F → NonSingular (C (k * j))) (V : ℕ → K) (s : ℕ → ℕ → V3 K) :
    fromAse E { P with stepSkip := P.stepSkip.mul E.fl (.int k) } S k none (.one (cellFrames F sy C V s)) =
      fromUniverse E P S 1 k none (.one (cellUniverse F sy C V s)) := by
  rw [ase_canonical E P S hk, universe_canonical E P S hk sy C hC]

/-- Which exception was raised. -/
def raised {α : Type} : PyM α → Option PyErr
  | .error e => some e
  | .ok _ => none

theorem error_of_raised {α : Type} {x : PyM α} {e : PyErr} (h : raised x = some e) : x = .error e := by
  cases x with
  | error e' => exact congrArg _ (Option.some.inj h)
  | ok a => cases h

/-- **C117, the full property is violated.** Every second frame of the same trajectory: with the same arguments the times of `from_universe` (and of
`from_pymatgen`, in femtoseconds) are twice those of `from_ase`; the MSDs are the same.  And a time step of 2000 (an `int`) femtoseconds with an `int`
for `step_skip` is an exception. -/
theorem C117_violated :
    let out := fun b : PyM (Base ℚ) => (diffusionAnalyzer id (exOracle ℚ) () exUnc b).toOption.map fun p => (p.1.diff.n, p.1.diff.dt)
    let fr := cellFrames 6 ["Li", "O"] (fun _ => exSkew) (fun _ => 800) (inCell exSkew exSlow)
    out (fromUniverse exNum exParams exSelect 1 2 none (.one (cellUniverse 6 ["Li", "O"] (fun _ => exSkew) (fun _ => 800) (inCell exSkew exSlow)))) =
      some ([328 / 75], [12]) ∧
    out (fromPymatgen exNum (inFemto exParams (.float 2000)) exSelect 2 none (.one fr)) = some ([328 / 75], [12]) ∧
    out (fromAse exNum exParams exSelect 2 none (.one fr)) = some ([328 / 75], [6]) ∧
    fromPymatgen exNum (inFemto exParams (.int 2000)) exSelect 2 none (.one fr) = .error .ufuncTypeError := by
  exact ⟨by decide +kernel, by decide +kernel, by decide +kernel, error_of_raised (by decide +kernel)⟩

/-- Every second of five frames: a universe in one cell, and an `Xdatcar` file in another cell with wandering images; the intervals end at 30 ps. -/
example (U : UncParams ℚ) : ∃ s' : ℕ → ℕ → V3 ℚ, s' 0 1 ≠ inCell exSkew' exSlow 0 1 ∧
    (jumpAnalyzer id (exOracle ℚ) () U (fromUniverse exNum { exParams with maxDt := some 30 } exSelect 1 2 none (.one (cellUniverse 5 ["Li", "O"]
      (fun _ => exSkew) (fun _ => 800) (inCell exSkew exSlow))))).map clipResult =
    (jumpAnalyzer id (exOracle ℚ) () U (fromFile (fun f => if f = "XDATCAR" then .ok (cellFrames 5 ["Li", "O"] (fun _ => exSkew') (fun _ => 800) s')
      else .error .external) exNum { exParams with timeStep := .float 2000, maxDt := some 30000 } exSelect 2 none (.one "XDATCAR"))).map clipResult := by
  have hd : det3 exSkew ≠ 0 := by decide +kernel
  have hd' : det3 exSkew' ≠ 0 := by decide +kernel
  have e0 : inCell exSkew exSlow = fun i j => fun k => vm (exSlow i j) (invFun exSkew) k + (((0 : ℕ → ℕ → Fin 3 → ℤ) i j k : ℤ) : ℚ) := by
    funext i j k
    simp [inCell]
  refine ⟨fun i j => fun k => vm (exSlow i j) (invFun exSkew') k + (((j : ℤ) : ℤ) : ℚ), by decide +kernel, ?_⟩
  rw [e0]
  have e1 : ({ exParams with timeStep := .float 2000, maxDt := some 30000 } : Params ℚ) = inFemto { exParams with maxDt := some 30 } (.float 2000) := by
    unfold inFemto exParams
    norm_num
  rw [e1]
  refine (C117_partial exNum rfl { exParams with maxDt := some 30 } (.int 6) (.float 2000) exSelect (.inl (by simp [exSelect])) 2 5 (by norm_num) (by norm_num)
    (by decide +kernel) rfl (.inr rfl) ["Li", "O"] (fun _ => exSkew) (fun _ => exSkew')
    (fun _ _ => by rw [nonSingular_iff]; exact hd) (fun _ _ => by rw [nonSingular_iff]; exact hd') (fun _ => 800) (fun _ => 800) rfl _
    (fun i j => fun k => vm (exSlow i j) (invFun exSkew') k + (((j : ℤ) : ℤ) : ℚ)) exSlow ?_ ?_ _ _ (.inl rfl) (.inr (.inr (.inr (.inr ⟨_, "XDATCAR", ?_, rfl⟩)))) id (exOracle ℚ) U (.scalar 1) ()).2.1
  · refine stored_fixed (F := 3) (n := 2) hd (x := fun i j => exSlow i (2 * j)) (fun _ _ _ => 0) fun i hi j hj => ?_
    have : j < 2 := by omega
    interval_cases i <;> interval_cases j <;> · unfold HalfCell; decide +kernel
  · refine stored_fixed (F := 3) (n := 2) hd' (x := fun i j => exSlow i (2 * j)) (fun _ j _ => ((2 * j : ℕ) : ℤ)) fun i hi j hj => ?_
    have : j < 2 := by omega
    interval_cases i <;> interval_cases j <;> · unfold HalfCell; decide +kernel
  · exact if_pos rfl

/-- One molecule of two atoms: `from_universe` and `from_structures`. -/
example (E : Num ℚ) (hE : E.fl = id) (masses : Option (List ℚ)) :
    fromUniverse E exParams ⟨none, .mols [[1, 2]], masses, none⟩ 1 2 none
        (.one (cellUniverse 5 ["Li", "O", "Li"] (fun _ => exSkew) (fun _ => 800) (inCell exSkew exSlow))) =
      fromPymatgen E { exParams with timeStep := .float 2000 } ⟨none, .mols [[1, 2]], masses, none⟩ 2 none
        (.one (cellFrames 5 ["Li", "O", "Li"] (fun _ => exSkew) (fun _ => 800) (inCell exSkew exSlow))) :=
  C117_molecules_partial E hE exParams (.int 6) (.float 2000) _ 2 5 (by norm_num) (by decide +kernel) rfl (.inr rfl) _ _
    (fun _ _ => by rw [nonSingular_iff]; decide +kernel) _ _ _ _ (.inl rfl) (.inr (.inr (.inl rfl)))

/-- Every second frame in double precision. -/
example : fromAse exNum64 { exParams with stepSkip := .int 6 } exSelect 2 none (.one (cellFrames 5 ["Li", "O"] (fun _ => exSkew) (fun _ => 800) (inCell exSkew exSlow))) =
    fromUniverse exNum64 exParams exSelect 1 2 none (.one (cellUniverse 5 ["Li", "O"] (fun _ => exSkew) (fun _ => 800) (inCell exSkew exSlow))) :=
  C117_floating_partial exNum64 exParams exSelect 2 5 (by norm_num) _ _ (fun _ _ => by rw [nonSingular_iff]; decide +kernel) _ _

end Kinisi
