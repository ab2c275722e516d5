import Mathlib.Tactic.IntervalCases
import Verif.Lemmas.Parser

/-!
# C13, C18, C19, C71, C72, C74, C75: parser constructors
-/

set_option linter.unusedSectionVars false
set_option linter.unusedVariables false

namespace Kinisi
open Spec
variable {K : Type} [Field K] [LinearOrder K] [IsStrictOrderedRing K] [FloorRing K]

/-! ## Example trajectory -/

/-- Exact arithmetic over ℚ; the trigonometric functions are not used by the examples. -/
def exNum : Num ℚ := ⟨id, fun _ _ _ _ => 1, ⟨id, id, fun _ _ => 0, 3⟩⟩

/-- Cubic cell of edge 10. -/
def exBox : M3 ℚ := ![![10, 0, 0], ![0, 10, 0], ![0, 0, 10]]

/-- Two Li and one O; at frame `j` the Li atoms have moved by `j² / 50` and `-j² / 50` cells along x (wrapped), the O
atom not at all. -/
def exFrame (j : ℕ) : Frame ℚ :=
  { symbols := ["Li", "O", "Li"]
    frac := [![(j : ℚ) ^ 2 / 50, 0, 0], ![1 / 2, 1 / 2, 1 / 2], ![1 - (j : ℚ) ^ 2 / 50, 0, 0]]
    latt := exBox
    volume := 1000 }

/-- Five such frames. -/
def exTraj : List (Frame ℚ) := (List.range 5).map exFrame

/-- Default parameters. -/
def exParams : Params ℚ := { timeStep := .float 2, stepSkip := .int 3, memoryLimit := 8 }

/-- Selection of the Li atoms. -/
def exSelect : Select ℚ := ⟨some ["Li"], .none, none, none⟩

theorem ok_of_isSome {α : Type} {x : PyM α} (h : x.toOption.isSome = true) : ∃ r, x = .ok r := by
  cases x with
  | ok r => exact ⟨r, rfl⟩
  | error e => simp [Except.toOption] at h

/-! ## C13 -/

/-- **C13, what holds (ASE).** After the optional thinning by `sub_sample_traj` the parser sees `F` frames.  The observations
of an interval of `τ` frames are all windows between frames `τ` apart, in order; but they are preceded by one more
observation that spans only `τ - 1` frames, because the first frame is duplicated.  (This extra observation is what is
missing for the full property.)  `p` is the unwrapped path of the selected coordinates, `relTo` the drift correction. -/
theorem C13_ase_partial (E : Num K) (P : Params K) (S : Select K) (k : ℤ) (fr : List (Frame K)) (r : Parsed K)
    (hs : P.sampling = "multi-origin") (h : aseParser E P S k fr = .ok r) (h1 : ∀ τ ∈ r.intervals, 1 ≤ τ) :
    ∃ thin f0 coords sel n p, ∃ nat : List ℕ, pyStride k fr = .ok thin ∧ thin.head? = some f0 ∧
      selectAtoms E.trig f0.symbols (thin.map Frame.frac) S = .ok (coords, sel) ∧
      IsPath thin.length n (fun j => (thin.map Frame.latt).getD j 0) (fun j i => (coords.getD j []).getD i 0) p ∧
      r.intervals = nat.map (fun τ : ℕ => (τ : ℤ)) ∧ (∀ τ ∈ nat, 1 ≤ τ ∧ τ ≤ thin.length) ∧
      List.Forall₂ (FrameWindows thin.length (relTo (sel.drift.vals.map (atomOf n)) p) (sel.indices.map (atomOf n)))
        (nat.filter fun τ => decide (2 ≤ disjointWindows sel.indices.length thin.length τ)) r.disp3d := by
  unfold aseParser at h
  cases ht : pyStride k fr with
  | error e => rw [ht] at h; cases h
  | ok thin =>
  rw [ht] at h
  simp only [bind, Except.bind] at h
  cases thin with
  | nil => cases h
  | cons f0 rest =>
  simp only [structureCoordsLatt, List.map_cons] at h
  obtain ⟨coords, sel, n, p, nat, a1, a2, a3, a4, a5, a6, a7, a8, a9, a10, a11, a12⟩ := buildParser_windows hs h h1
  simp only [List.length_map] at a6 a9 a12
  exact ⟨f0 :: rest, f0, coords, sel, n, p, nat, rfl, rfl, a1, a6, a8, a9, a12⟩

/-- **C13, what holds (pymatgen)**: as for ASE. -/
theorem C13_pymatgen_partial (E : Num K) (P : Params K) (S : Select K) (k : ℤ) (fr : List (Frame K)) (r : Parsed K)
    (hs : P.sampling = "multi-origin") (h : pymatgenParser E P S k fr = .ok r) (h1 : ∀ τ ∈ r.intervals, 1 ≤ τ) :
    ∃ thin f0 coords sel n p, ∃ nat : List ℕ, pyStride k fr = .ok thin ∧ thin.head? = some f0 ∧
      selectAtoms E.trig f0.symbols (thin.map Frame.frac) S = .ok (coords, sel) ∧
      IsPath thin.length n (fun j => (thin.map Frame.latt).getD j 0) (fun j i => (coords.getD j []).getD i 0) p ∧
      r.intervals = nat.map (fun τ : ℕ => (τ : ℤ)) ∧ (∀ τ ∈ nat, 1 ≤ τ ∧ τ ≤ thin.length) ∧
      List.Forall₂ (FrameWindows thin.length (relTo (sel.drift.vals.map (atomOf n)) p) (sel.indices.map (atomOf n)))
        (nat.filter fun τ => decide (2 ≤ disjointWindows sel.indices.length thin.length τ)) r.disp3d := by
  unfold pymatgenParser at h
  cases ht : pyStride k fr with
  | error e => rw [ht] at h; cases h
  | ok thin =>
  rw [ht] at h
  simp only [bind, Except.bind] at h
  cases thin with
  | nil => cases h
  | cons f0 rest =>
  simp only [structureCoordsLatt, List.map_cons] at h
  cases hb : buildParser E { P with stepSkip := P.stepSkip.mul E.fl (.int k) } S f0 (f0.frac :: f0.frac :: rest.map Frame.frac)
    (f0.latt :: f0.latt :: rest.map Frame.latt) with
  | error e => rw [hb] at h; cases h
  | ok r0 =>
  rw [hb] at h
  simp only at h
  split_ifs at h
  obtain rfl := Except.ok.inj h
  obtain ⟨coords, sel, n, p, nat, a1, a2, a3, a4, a5, a6, a7, a8, a9, a10, a11, a12⟩ := buildParser_windows (P := { P with stepSkip := P.stepSkip.mul E.fl (.int k) }) hs hb h1
  simp only [List.length_map] at a6 a9 a12
  exact ⟨f0 :: rest, f0, coords, sel, n, p, nat, rfl, rfl, a1, a6, a8, a9, a12⟩

/-- `r` is the frame `f` of an MDAnalysis universe in fractional coordinates, with every `ka`-th atom. -/
def Fractional (types : List String) (ka : ℤ) (f : MdaFrame K) (r : Frame K) : Prop :=
  pyStride ka types = .ok r.symbols ∧ pyStride ka f.pos = .ok (r.frac.map (cart f.latt)) ∧ r.latt = f.latt ∧ r.volume = f.volume

theorem mdaFrame_fractional {types : List String} {ka : ℤ} {f : MdaFrame K} {r : Frame K} (h : mdaFrame types ka f = .ok r) :
    Fractional types ka f r := by
  unfold mdaFrame at h
  cases ht : pyStride ka types with
  | error e => rw [ht] at h; cases h
  | ok t =>
  rw [ht] at h
  simp only [bind, Except.bind] at h
  by_cases hd : det3 f.latt = 0
  · rw [inv3_err hd] at h; cases h
  rw [inv3_ok hd] at h
  cases hq : pyStride ka f.pos with
  | error e => rw [hq] at h; cases h
  | ok q =>
  rw [hq] at h
  obtain rfl := Except.ok.inj h
  refine ⟨ht, ?_, rfl, rfl⟩
  rw [hq]
  have : (q.map fun x => vm x (invFun f.latt)).map (cart f.latt) = q := by
    rw [List.map_map]
    conv_rhs => rw [← List.map_id q]
    exact List.map_congr_left fun x _ => vm_inv_right hd x
  rw [this]

/-- **C13, what holds (MDAnalysis)**: as for ASE, with the fractional coordinates of the kept atoms. -/
theorem C13_mda_partial (E : Num K) (P : Params K) (S : Select K) (ka k : ℤ) (types : List String) (fr : List (MdaFrame K))
    (r : Parsed K) (hs : P.sampling = "multi-origin") (h : mdaParser E P S ka k types fr = .ok r)
    (h1 : ∀ τ ∈ r.intervals, 1 ≤ τ) :
    ∃ thin read f0 coords sel n p, ∃ nat : List ℕ, pyStride k fr = .ok thin ∧
      List.Forall₂ (Fractional types ka) thin read ∧ read.head? = some f0 ∧
      selectAtoms E.trig f0.symbols (read.map Frame.frac) S = .ok (coords, sel) ∧
      IsPath read.length n (fun j => (read.map Frame.latt).getD j 0) (fun j i => (coords.getD j []).getD i 0) p ∧
      r.intervals = nat.map (fun τ : ℕ => (τ : ℤ)) ∧ (∀ τ ∈ nat, 1 ≤ τ ∧ τ ≤ read.length) ∧
      List.Forall₂ (FrameWindows read.length (relTo (sel.drift.vals.map (atomOf n)) p) (sel.indices.map (atomOf n)))
        (nat.filter fun τ => decide (2 ≤ disjointWindows sel.indices.length read.length τ)) r.disp3d := by
  unfold mdaParser at h
  dsimp only at h
  split_ifs at h
  cases ht : pyStride k fr with
  | error e => rw [ht] at h; cases h
  | ok thin =>
  rw [ht] at h
  simp only [bind, Except.bind] at h
  cases hm : thin.mapM (mdaFrame types ka) with
  | error e => rw [hm] at h; cases h
  | ok read =>
  rw [hm] at h
  simp only at h
  cases read with
  | nil => cases h
  | cons f0 rest =>
  simp only [structureCoordsLatt, List.map_cons] at h
  obtain ⟨coords, sel, n, p, nat, a1, a2, a3, a4, a5, a6, a7, a8, a9, a10, a11, a12⟩ :=
    buildParser_windows (P := { P with stepSkip := P.stepSkip.mul E.fl (.int k) }) hs h h1
  simp only [List.length_map] at a6 a9 a12
  refine ⟨thin, f0 :: rest, f0, coords, sel, n, p, nat, rfl, ?_, rfl, a1, a6, a8, a9, a12⟩
  rw [List.forall₂_iff_get]
  obtain ⟨b1, b2⟩ := mapM_except_inv hm
  exact ⟨b1.symm, fun i hi hi' => mdaFrame_fractional (b2 i hi hi')⟩

/-- **C13 is violated**: in the example trajectory the first Li atom moves by a non-zero amount over every single frame, yet
the first observation for the interval of one frame is zero; and an interval of five frames is reported although the
trajectory of five frames contains no two frames that far apart. -/
theorem C13_violated : ∃ r, aseParser exNum exParams exSelect 1 exTraj = .ok r ∧ r.intervals = [1, 2, 3, 4, 5] ∧
    (∃ a, r.disp3d[0]? = some a ∧ ¬ Spans 5 1 (fun j => ![(j : ℚ) ^ 2 / 5, 0, 0]) (a.get 0 0)) ∧
    (∃ a, r.disp3d[4]? = some a ∧ a.n1 = 1 ∧ ∀ q : ℕ → V3 ℚ, ¬ Spans 5 5 q (a.get 0 0)) := by
  obtain ⟨r, hr⟩ := ok_of_isSome (x := aseParser exNum exParams exSelect 1 exTraj) (by decide +kernel)
  have hd : (aseParser exNum exParams exSelect 1 exTraj).toOption.map
      (fun r => (r.intervals, r.disp3d.map fun a => (a.n1, a.get 0 0 0))) =
      some ([1, 2, 3, 4, 5], [(5, 0), (4, 1 / 5), (3, 4 / 5), (2, 9 / 5), (1, 16 / 5)]) := by decide +kernel
  rw [hr] at hd
  simp only [Except.toOption, Option.map_some, Option.some.injEq, Prod.mk.injEq] at hd
  obtain ⟨h1, h2⟩ := hd
  refine ⟨r, hr, h1, ?_, ?_⟩
  · have hl : 0 < r.disp3d.length := by have := congrArg List.length h2; simp at this; omega
    refine ⟨r.disp3d[0], List.getElem?_eq_getElem hl, ?_⟩
    have h0 : (r.disp3d[0]).get 0 0 0 = 0 := by
      have := congrArg (fun l => (l[0]?).map Prod.snd) h2
      simp [hl] at this
      exact this
    rintro ⟨s, hs, hd⟩
    have := hd 0
    rw [h0] at this
    have hs' : s < 4 := by omega
    simp at this
    interval_cases s <;> norm_num at this
  · have hl : 4 < r.disp3d.length := by have := congrArg List.length h2; simp at this; omega
    refine ⟨r.disp3d[4], List.getElem?_eq_getElem hl, ?_, ?_⟩
    · have := congrArg (fun l => (l[4]?).map Prod.fst) h2
      simp [hl] at this
      exact this
    · rintro q ⟨s, hs, -⟩
      omega

example : ∃ r, aseParser exNum exParams exSelect 2 exTraj = .ok r ∧ ∀ τ ∈ r.intervals, 1 ≤ τ := by
  obtain ⟨r, hr⟩ := ok_of_isSome (x := aseParser exNum exParams exSelect 2 exTraj) (by decide +kernel)
  have hd : (aseParser exNum exParams exSelect 2 exTraj).toOption.map Parsed.intervals = some [1, 2, 3] := by decide +kernel
  rw [hr] at hd
  simp only [Except.toOption, Option.map_some, Option.some.injEq] at hd
  exact ⟨r, hr, by rw [hd]; decide⟩

/-! ## C18 -/

theorem deltaT_exact (E : Num K) (P : Params K) (S : Select K) (hfl : E.fl = id) (st : Frame K) (coords : List (List (V3 K)))
    (latt : List (M3 K)) (r : Parsed K) (h : buildParser E P S st coords latt = .ok r) :
    r.deltaT = r.intervals.map fun τ : ℤ => (τ : K) * P.stepSkip.val * P.timeStep.val := by
  obtain ⟨coords', sel, w, disp, r0, -, -, hinit, rfl⟩ := buildParser_inv h
  obtain ⟨-, -, hgd, -⟩ := parserInit_inv hinit
  have := getDisps_deltaT hgd
  dsimp only at this ⊢
  rw [this]
  apply List.map_congr_left
  intro τ _
  rw [hfl, deltaTOf, PyNum.val_mul_id, PyNum.val_mul_id]
  simp only [PyNum.val]
  ring

/-- **C18 (pymatgen).** `time_step` in femtoseconds, `delta_t` in picoseconds. -/
theorem C18_pymatgen (E : Num K) (P : Params K) (S : Select K) (hfl : E.fl = id) (k : ℤ) (fr : List (Frame K)) (r : Parsed K)
    (h : pymatgenParser E P S k fr = .ok r) :
    r.deltaT = r.intervals.map fun τ : ℤ => (τ : K) * k * P.stepSkip.val * P.timeStep.val / 1000 := by
  unfold pymatgenParser at h
  cases ht : pyStride k fr with
  | error e => rw [ht] at h; cases h
  | ok thin =>
  rw [ht] at h
  simp only [bind, Except.bind] at h
  cases hsc : structureCoordsLatt thin with
  | error e => rw [hsc] at h; cases h
  | ok scl =>
  obtain ⟨st, coords, latt⟩ := scl
  rw [hsc] at h
  simp only at h
  cases hb : buildParser E { P with stepSkip := P.stepSkip.mul E.fl (.int k) } S st coords latt with
  | error e => rw [hb] at h; cases h
  | ok r0 =>
  rw [hb] at h
  simp only at h
  split_ifs at h
  obtain rfl := Except.ok.inj h
  dsimp only
  rw [deltaT_exact E { P with stepSkip := P.stepSkip.mul E.fl (.int k) } S hfl _ _ _ _ hb, List.map_map]
  apply List.map_congr_left
  intro τ _
  simp only [Function.comp, hfl, PyNum.val_mul_id, id]
  simp only [PyNum.val]
  ring

/-- **C18 (MDAnalysis).** -/
theorem C18_mda (E : Num K) (P : Params K) (S : Select K) (hfl : E.fl = id) (ka k : ℤ) (types : List String)
    (fr : List (MdaFrame K)) (r : Parsed K) (h : mdaParser E P S ka k types fr = .ok r) :
    r.deltaT = r.intervals.map fun τ : ℤ => (τ : K) * k * P.stepSkip.val * P.timeStep.val := by
  unfold mdaParser at h
  dsimp only at h
  split_ifs at h
  cases ht : pyStride k fr with
  | error e => rw [ht] at h; cases h
  | ok thin =>
  rw [ht] at h
  simp only [bind, Except.bind] at h
  cases hm : thin.mapM (mdaFrame types ka) with
  | error e => rw [hm] at h; cases h
  | ok read =>
  rw [hm] at h
  simp only at h
  cases hsc : structureCoordsLatt read with
  | error e => rw [hsc] at h; cases h
  | ok scl =>
  obtain ⟨st, coords, latt⟩ := scl
  rw [hsc] at h
  simp only at h
  rw [deltaT_exact E { P with stepSkip := P.stepSkip.mul E.fl (.int k) } S hfl _ _ _ _ h]
  apply List.map_congr_left
  intro τ _
  simp only [hfl, PyNum.val_mul_id]
  simp only [PyNum.val]
  ring

/-- **C18 (ASE), what holds.** `sub_sample_traj` does not enter `delta_t`, so the claim holds for `sub_sample_traj = 1`
only. -/
theorem C18_ase_partial (E : Num K) (P : Params K) (S : Select K) (hfl : E.fl = id) (k : ℤ) (fr : List (Frame K)) (r : Parsed K)
    (h : aseParser E P S k fr = .ok r) :
    r.deltaT = r.intervals.map fun τ : ℤ => (τ : K) * P.stepSkip.val * P.timeStep.val := by
  unfold aseParser at h
  cases ht : pyStride k fr with
  | error e => rw [ht] at h; cases h
  | ok thin =>
  rw [ht] at h
  simp only [bind, Except.bind] at h
  cases hsc : structureCoordsLatt thin with
  | error e => rw [hsc] at h; cases h
  | ok scl =>
  obtain ⟨st, coords, latt⟩ := scl
  rw [hsc] at h
  simp only at h
  exact deltaT_exact E P S hfl _ _ _ _ h

/-- **C18 is violated for ASE with `sub_sample_traj`**: frames 0, 2, 4 of frames 6 ps apart are used, and the interval of one
sampled frame (12 ps) is reported as 6 ps. -/
theorem C18_violated_ase : ∃ r, aseParser exNum exParams exSelect 2 exTraj = .ok r ∧ r.intervals = [1, 2, 3] ∧
    r.deltaT = [6, 12, 18] ∧
    r.deltaT ≠ r.intervals.map fun τ : ℤ => (τ : ℚ) * 2 * exParams.stepSkip.val * exParams.timeStep.val := by
  obtain ⟨r, hr⟩ := ok_of_isSome (x := aseParser exNum exParams exSelect 2 exTraj) (by decide +kernel)
  have hd : (aseParser exNum exParams exSelect 2 exTraj).toOption.map (fun r => (r.intervals, r.deltaT)) =
      some ([1, 2, 3], [6, 12, 18]) := by decide +kernel
  rw [hr] at hd
  simp only [Except.toOption, Option.map_some, Option.some.injEq, Prod.mk.injEq] at hd
  refine ⟨r, hr, hd.1, hd.2, ?_⟩
  rw [hd.1, hd.2]
  norm_num [exParams, PyNum.val]

example : ∃ r, pymatgenParser exNum exParams exSelect 2 exTraj = .ok r ∧ r.deltaT = [12 / 1000, 24 / 1000, 36 / 1000] := by
  obtain ⟨r, hr⟩ := ok_of_isSome (x := pymatgenParser exNum exParams exSelect 2 exTraj) (by decide +kernel)
  have hd : (pymatgenParser exNum exParams exSelect 2 exTraj).toOption.map Parsed.intervals = some [1, 2, 3] := by
    decide +kernel
  rw [hr] at hd
  simp only [Except.toOption, Option.map_some, Option.some.injEq] at hd
  refine ⟨r, hr, ?_⟩
  rw [C18_pymatgen exNum exParams exSelect rfl 2 exTraj r hr, hd]
  norm_num [exParams, PyNum.val]

/-! ## C19 -/

theorem stepsOf_congr {ts ts' ss : PyNum K} (h : ts.val = ts'.val) (x : K) : stepsOf id ts ss x = stepsOf id ts' ss x := by
  simp only [stepsOf, PyNum.val_mul_id, h]

theorem initTimeIntervals_congr {ts ts' : PyNum K} (h : ts.val = ts'.val) (geo : ℤ → ℤ → ℕ → ℕ → K) (T : ℕ) (ss : PyNum K)
    (mn mx : Option K) (n : ℤ) (sp : String) :
    initTimeIntervals id geo T ts ss mn mx n sp = initTimeIntervals id geo T ts' ss mn mx n sp := by
  have h1 : maxDtOf id T ts ss mx = maxDtOf id T ts' ss mx := by
    cases mx with
    | none => simp only [maxDtOf, PyNum.val_mul_id, h]
    | some x => rfl
  have h2 : minDtOf id ts ss mn = minDtOf id ts' ss mn := by
    cases mn with
    | none => simp only [minDtOf, PyNum.val_mul_id, h]
    | some x => rfl
  unfold initTimeIntervals getTimeIntervals
  simp only [h1, h2, stepsOf_congr h]

theorem getDisps_congr {ts ts' : PyNum K} (h : ts.val = ts'.val) (giga : K) (itemsize : ℕ) (ss : PyNum K) (idx : List ℤ)
    (sampling : String) (limit : K) (iv : List ℤ) (dc : Arr3 K) :
    getDisps id giga itemsize ts ss idx sampling limit iv dc = getDisps id giga itemsize ts' ss idx sampling limit iv dc := by
  have h1 : (fun τ => (deltaTOf id ts ss τ).val) = fun τ => (deltaTOf id ts' ss τ).val := by
    funext τ
    simp only [deltaTOf, PyNum.val_mul_id, h]
  unfold getDisps
  rw [h1]

/-- The parsed object with its time step given as a float. -/
def asFloat (r : Parsed K) : Parsed K := { r with timeStep := .float r.timeStep.val, deltaInt := false }

theorem parserInit_float (E : Num K) (hfl : E.fl = id) (P : Params K) (z : ℤ) (w : Bool) (disp : Arr3 K) (sel : Selection) :
    parserInit E { P with timeStep := .float (z : K) } w disp sel =
      (parserInit E { P with timeStep := .int z } w disp sel).map asFloat := by
  unfold parserInit
  dsimp only
  rw [hfl]
  cases correctDriftSeq sel.drift disp with
  | error e => rfl
  | ok dc =>
  simp only [bind, Except.bind]
  rw [initTimeIntervals_congr (ts := .float (z : K)) (ts' := .int z) rfl]
  cases initTimeIntervals id E.geo dc.n1 (.int z) P.stepSkip P.minDt P.maxDt P.nSteps P.spacing with
  | error e => rfl
  | ok ti =>
  simp only
  rw [getDisps_congr (ts := .float (z : K)) (ts' := .int z) rfl]
  cases getDisps id (id (1 / 10 ^ 9)) P.itemsize (.int z) P.stepSkip sel.indices P.sampling P.memoryLimit ti dc with
  | error e => rfl
  | ok o => simp [Except.map, asFloat, PyNum.val, PyNum.isInt]

theorem buildParser_float (E : Num K) (hfl : E.fl = id) (P : Params K) (S : Select K) (z : ℤ) (st : Frame K)
    (coords : List (List (V3 K))) (latt : List (M3 K)) :
    buildParser E { P with timeStep := .float (z : K) } S st coords latt =
      (buildParser E { P with timeStep := .int z } S st coords latt).map asFloat := by
  unfold buildParser
  cases selectAtoms E.trig st.symbols coords S with
  | error e => rfl
  | ok cs =>
  obtain ⟨coords', sel⟩ := cs
  simp only [bind, Except.bind]
  cases getDisp coords' latt with
  | error e => rfl
  | ok wd =>
  obtain ⟨w, disp⟩ := wd
  simp only
  rw [parserInit_float E hfl]
  cases parserInit E { P with timeStep := .int z } w disp sel with
  | error e => rfl
  | ok r => rfl

/-- **C19, what holds (ASE).** An integer and a floating time step give the same outcome, including the same exception. -/
theorem C19_ase_partial (E : Num K) (hfl : E.fl = id) (P : Params K) (S : Select K) (z k : ℤ) (fr : List (Frame K)) :
    aseParser E { P with timeStep := .float (z : K) } S k fr =
      (aseParser E { P with timeStep := .int z } S k fr).map asFloat := by
  unfold aseParser
  cases pyStride k fr with
  | error e => rfl
  | ok thin =>
  simp only [bind, Except.bind]
  cases structureCoordsLatt thin with
  | error e => rfl
  | ok scl => exact buildParser_float E hfl P S z _ _ _

/-- **C19, what holds (MDAnalysis).** -/
theorem C19_mda_partial (E : Num K) (hfl : E.fl = id) (P : Params K) (S : Select K) (z ka k : ℤ) (types : List String)
    (fr : List (MdaFrame K)) :
    mdaParser E { P with timeStep := .float (z : K) } S ka k types fr =
      (mdaParser E { P with timeStep := .int z } S ka k types fr).map asFloat := by
  unfold mdaParser
  dsimp only
  split_ifs
  · rfl
  cases pyStride k fr with
  | error e => rfl
  | ok thin =>
  simp only [bind, Except.bind]
  cases thin.mapM (mdaFrame types ka) with
  | error e => rfl
  | ok read =>
  simp only
  cases structureCoordsLatt read with
  | error e => rfl
  | ok scl => exact buildParser_float E hfl { P with stepSkip := P.stepSkip.mul E.fl (.int k) } S z _ _ _

/-- **C19 is violated for pymatgen**, always: whenever the parse succeeds with the floating time step and an integer
`step_skip` (its documented type), it raises with the integer time step. -/
theorem C19_violated_pymatgen (E : Num K) (hfl : E.fl = id) (P : Params K) (S : Select K) (z s k : ℤ) (fr : List (Frame K))
    (hss : P.stepSkip = .int s) (r : Parsed K) (h : pymatgenParser E { P with timeStep := .float (z : K) } S k fr = .ok r) :
    pymatgenParser E { P with timeStep := .int z } S k fr = .error .ufuncTypeError := by
  unfold pymatgenParser at h ⊢
  cases hthin : pyStride k fr with
  | error e => rw [hthin] at h; cases h
  | ok thin =>
  rw [hthin] at h
  simp only [bind, Except.bind] at h ⊢
  cases hscl : structureCoordsLatt thin with
  | error e => rw [hscl] at h; cases h
  | ok scl =>
  obtain ⟨st, coords, latt⟩ := scl
  rw [hscl] at h
  simp only [hss, PyNum.mul] at h ⊢
  rw [buildParser_float E hfl { P with stepSkip := .int (s * k) }] at h
  cases hb : buildParser E { P with stepSkip := .int (s * k), timeStep := .int z } S st coords latt with
  | error e => rw [hb] at h; cases h
  | ok r0 =>
  have hi : r0.deltaInt = true := by
    obtain ⟨coords', sel, w, disp, r1, -, -, hinit, rfl⟩ := buildParser_inv hb
    obtain ⟨-, -, -, -, -, -, -, -, hd⟩ := parserInit_inv hinit
    rw [hd]; rfl
  simp only [hi, if_true]

/-- The violation occurs: the example parses with 2.0 and fails with 2. -/
example : (∃ r, pymatgenParser exNum { exParams with timeStep := .float ((2 : ℤ) : ℚ) } exSelect 1 exTraj = .ok r) ∧
    pymatgenParser exNum { exParams with timeStep := .int 2 } exSelect 1 exTraj = .error .ufuncTypeError := by
  obtain ⟨r, hr⟩ := ok_of_isSome (x := pymatgenParser exNum { exParams with timeStep := .float ((2 : ℤ) : ℚ) } exSelect 1 exTraj)
    (by decide +kernel)
  exact ⟨⟨r, hr⟩, C19_violated_pymatgen exNum rfl exParams exSelect 2 3 1 exTraj rfl r hr⟩

/-! ## C71 -/

/-- The same sequence as a list or as a tuple. -/
def PySeq.retype (t : Bool) (s : PySeq) : PySeq := { s with isTuple := t }

/-- **C71, what holds.** Without `specie` (flat indices or molecules) the type of the `specie_indices` sequence and of the
`framework_indices` sequence does not matter. -/
theorem C71_indices_partial (tr : Trig K) (symbols : List String) (coords : List (List (V3 K))) (S : Select K)
    (hsp : S.specie = none) (t t' : Bool) :
    selectAtoms tr symbols coords { S with framework := S.framework.map (PySeq.retype t) } = selectAtoms tr symbols coords S ∧
    ∀ s, S.specieIdx = .flat s →
      selectAtoms tr symbols coords { S with specieIdx := .flat (s.retype t') } = selectAtoms tr symbols coords S := by
  constructor
  · unfold selectAtoms
    rw [hsp]
    dsimp only
    cases hi : S.specieIdx with
    | none => rfl
    | flat s => cases hf : S.framework <;> rfl
    | mols ms => cases hf : S.framework <;> rfl
  · intro s hs
    unfold selectAtoms
    rw [hsp, hs]
    rfl

/-- **C71 is violated with `specie`**, always: a non-empty `framework_indices` tuple makes the parser raise IndexError
whenever the same list works. -/
theorem C71_violated (E : Num K) (P : Params K) (S : Select K) (k : ℤ) (fr : List (Frame K)) (sp : List String) (v : List ℤ)
    (hsp : S.specie = some sp) (hv : v ≠ []) (r : Parsed K)
    (h : aseParser E P { S with framework := some ⟨false, v⟩ } k fr = .ok r) :
    aseParser E P { S with framework := some ⟨true, v⟩ } k fr = .error .indexError := by
  unfold aseParser at h ⊢
  cases hthin : pyStride k fr with
  | error e => rw [hthin] at h; cases h
  | ok thin =>
  rw [hthin] at h
  simp only [bind, Except.bind] at h ⊢
  cases hscl : structureCoordsLatt thin with
  | error e => rw [hscl] at h; cases h
  | ok scl =>
  obtain ⟨st, coords, latt⟩ := scl
  rw [hscl] at h
  simp only at h ⊢
  obtain ⟨coords', sel, w, disp, r0, hsel, hdisp, hinit, -⟩ := buildParser_inv h
  unfold selectAtoms at hsel
  rw [hsp] at hsel
  simp only [getIndices] at hsel
  by_cases h0 : (positions (fun s => sp.contains s) st.symbols).length = 0
  · rw [if_pos h0] at hsel; cases hsel
  rw [if_neg h0] at hsel
  simp only [bind, Except.bind, Except.ok.injEq, Prod.mk.injEq] at hsel
  obtain ⟨rfl, rfl⟩ := hsel
  have hsel' : selectAtoms E.trig st.symbols coords { S with framework := some ⟨true, v⟩ } =
      .ok (coords, ⟨positions (fun s => sp.contains s) st.symbols, ⟨true, v⟩⟩) := by
    unfold selectAtoms
    rw [hsp]
    simp only [getIndices]
    rw [if_neg h0]
    rfl
  unfold buildParser
  rw [hsel']
  simp only [bind, Except.bind]
  rw [hdisp]
  simp only
  have : parserInit E P w disp ⟨positions (fun s => sp.contains s) st.symbols, ⟨true, v⟩⟩ = .error .indexError := by
    unfold parserInit correctDriftSeq
    have : ((true && decide (0 < v.length)) = true) := by
      simpa [List.length_pos_iff] using hv
    rw [if_pos this]
    rfl
  rw [this]

/-- The violation occurs in the example. -/
example : (∃ r, aseParser exNum exParams { exSelect with framework := some ⟨false, [1]⟩ } 1 exTraj = .ok r) ∧
    aseParser exNum exParams { exSelect with framework := some ⟨true, [1]⟩ } 1 exTraj = .error .indexError := by
  obtain ⟨r, hr⟩ := ok_of_isSome (x := aseParser exNum exParams { exSelect with framework := some ⟨false, [1]⟩ } 1 exTraj)
    (by decide +kernel)
  exact ⟨⟨r, hr⟩, C71_violated exNum exParams exSelect 1 exTraj ["Li"] [1] rfl (by simp) r hr⟩

/-! ## C72 -/

theorem mul_one_step (E : Num K) (ss : PyNum K) (k : ℤ) (h : E.fl = id ∨ ∃ s, ss = .int s) :
    (ss.mul E.fl (.int k)).mul E.fl (.int 1) = ss.mul E.fl (.int k) := by
  rcases h with h | ⟨s, rfl⟩
  · rw [h]
    cases ss with
    | int z => simp [PyNum.mul]
    | float x => simp [PyNum.mul, PyNum.val]
  · simp [PyNum.mul]

/-- **C72 (pymatgen).** Thinning inside equals thinning outside with a `step_skip` `k` times as large: same outcome,
exceptions included. -/
theorem C72_pymatgen (E : Num K) (P : Params K) (S : Select K) (k : ℤ) (fr thin : List (Frame K))
    (hss : E.fl = id ∨ ∃ s, P.stepSkip = .int s) (ht : pyStride k fr = .ok thin) :
    pymatgenParser E P S k fr = pymatgenParser E { P with stepSkip := P.stepSkip.mul E.fl (.int k) } S 1 thin := by
  unfold pymatgenParser
  rw [ht, pyStride_one]
  simp only [bind, Except.bind]
  cases structureCoordsLatt thin with
  | error e => rfl
  | ok scl => simp only [mul_one_step E P.stepSkip k hss]

/-- **C72 (MDAnalysis).** -/
theorem C72_mda (E : Num K) (P : Params K) (S : Select K) (ka k : ℤ) (types : List String) (fr thin : List (MdaFrame K))
    (hss : E.fl = id ∨ ∃ s, P.stepSkip = .int s) (ht : pyStride k fr = .ok thin) :
    mdaParser E P S ka k types fr = mdaParser E { P with stepSkip := P.stepSkip.mul E.fl (.int k) } S ka 1 types thin := by
  unfold mdaParser
  dsimp only
  rw [ht, pyStride_one]
  split_ifs
  · rfl
  simp only [bind, Except.bind]
  cases thin.mapM (mdaFrame types ka) with
  | error e => rfl
  | ok read =>
  simp only
  cases structureCoordsLatt read with
  | error e => rfl
  | ok scl => simp only [mul_one_step E P.stepSkip k hss]

/-- The thinned list consists of the frames `0, k, 2k, …`. -/
theorem C72_thinned_frames {α : Type} (k : ℕ) (hk : 0 < k) (fr : List α) :
    ∃ thin, pyStride (k : ℤ) fr = .ok thin ∧ ∀ i, thin[i]? = fr[k * i]? := by
  refine ⟨stride k fr, ?_, stride_getElem? k hk fr⟩
  unfold pyStride
  rw [if_neg (by omega), if_pos (by omega)]
  simp

/-- **C72 (ASE), what holds.** The result is that of the thinned trajectory with the *same* `step_skip`: coordinates are
right, times are not scaled. -/
theorem C72_ase_partial (E : Num K) (P : Params K) (S : Select K) (k : ℤ) (fr thin : List (Frame K))
    (ht : pyStride k fr = .ok thin) : aseParser E P S k fr = aseParser E P S 1 thin := by
  unfold aseParser
  rw [ht, pyStride_one]

/-- **C72 is violated for ASE**: `delta_t` of the two ways differ. -/
theorem C72_violated_ase : ∃ thin r r', pyStride 2 exTraj = .ok thin ∧ aseParser exNum exParams exSelect 2 exTraj = .ok r ∧
    aseParser exNum { exParams with stepSkip := exParams.stepSkip.mul id (.int 2) } exSelect 1 thin = .ok r' ∧
    r.deltaT = [6, 12, 18] ∧ r'.deltaT = [12, 24, 36] := by
  refine ⟨[exFrame 0, exFrame 2, exFrame 4], ?_⟩
  obtain ⟨r, hr⟩ := ok_of_isSome (x := aseParser exNum exParams exSelect 2 exTraj) (by decide +kernel)
  obtain ⟨r', hr'⟩ := ok_of_isSome (x := aseParser exNum { exParams with stepSkip := exParams.stepSkip.mul id (.int 2) } exSelect 1
    [exFrame 0, exFrame 2, exFrame 4]) (by decide +kernel)
  refine ⟨r, r', rfl, hr, hr', ?_, ?_⟩
  · have hd : (aseParser exNum exParams exSelect 2 exTraj).toOption.map Parsed.deltaT = some [6, 12, 18] := by decide +kernel
    rw [hr] at hd
    simpa [Except.toOption] using hd
  · have hd : (aseParser exNum { exParams with stepSkip := exParams.stepSkip.mul id (.int 2) } exSelect 1
      [exFrame 0, exFrame 2, exFrame 4]).toOption.map Parsed.deltaT = some [12, 24, 36] := by decide +kernel
    rw [hr'] at hd
    simpa [Except.toOption] using hd

example : ∃ r, pymatgenParser exNum exParams exSelect 2 exTraj = .ok r ∧
    pymatgenParser exNum { exParams with stepSkip := .int 6 } exSelect 1 [exFrame 0, exFrame 2, exFrame 4] = .ok r := by
  obtain ⟨r, hr⟩ := ok_of_isSome (x := pymatgenParser exNum exParams exSelect 2 exTraj) (by decide +kernel)
  refine ⟨r, hr, ?_⟩
  have := C72_pymatgen exNum exParams exSelect 2 exTraj [exFrame 0, exFrame 2, exFrame 4] (Or.inl rfl) rfl
  rw [hr] at this
  exact this.symm

/-! ## C74 -/

/-- The computation raises. -/
def Raises {α : Type} (x : PyM α) : Prop := ∃ e, x = .error e

theorem raises_iff {α : Type} (x : PyM α) : Raises x ↔ ∀ r, x ≠ .ok r := by
  cases x with
  | error e => simp [Raises]
  | ok r => simp [Raises]

theorem selectAtoms_ok {tr : Trig K} {symbols : List String} {coords : List (List (V3 K))} {S : Select K}
    {x : List (List (V3 K)) × Selection} (h : selectAtoms tr symbols coords S = .ok x) :
    x.2.indices ≠ [] ∧ (S.specie = none → S.specieIdx ≠ .none ∧ (∀ s, S.specieIdx = .flat s → s.vals ≠ []) ∧
      ∀ ms, S.specieIdx = .mols ms → ms ≠ []) := by
  unfold selectAtoms at h
  cases hsp : S.specie with
  | some sp =>
    rw [hsp] at h
    simp only [getIndices] at h
    by_cases h0 : (positions (fun s => sp.contains s) symbols).length = 0
    · rw [if_pos h0] at h; cases h
    rw [if_neg h0] at h
    refine ⟨?_, by simp⟩
    cases hf : S.framework with
    | none =>
      rw [hf] at h
      obtain rfl := Except.ok.inj h
      simpa using h0
    | some f =>
      rw [hf] at h
      obtain rfl := Except.ok.inj h
      simpa using h0
  | none =>
    rw [hsp] at h
    dsimp only at h
    cases hi : S.specieIdx with
    | none => rw [hi] at h; cases h
    | flat s =>
      rw [hi] at h
      dsimp only at h
      by_cases h0 : s.vals.length = 0
      · rw [if_pos h0] at h; cases h
      rw [if_neg h0] at h
      have hne : s.vals ≠ [] := by simpa using h0
      refine ⟨?_, by simpa using hne⟩
      unfold getFramework at h
      cases hf : S.framework with
      | none =>
        rw [hf] at h
        obtain rfl := Except.ok.inj h
        exact hne
      | some f =>
        rw [hf] at h
        dsimp only at h
        split_ifs at h
        · obtain rfl := Except.ok.inj h
          exact hne
        · cases h
    | mols ms =>
      rw [hi] at h
      dsimp only at h
      by_cases h0 : ms.length = 0
      · rw [if_pos h0] at h; cases h
      rw [if_neg h0] at h
      have hne : ms ≠ [] := by simpa using h0
      refine ⟨?_, by simpa using hne⟩
      obtain ⟨-, -, -, -, -, atoms, com, dr, -, -, -, rfl⟩ := getMolecules_inv h
      simpa using hne

theorem buildParser_ok {E : Num K} {P : Params K} {S : Select K} {st : Frame K} {coords : List (List (V3 K))}
    {latt : List (M3 K)} {r : Parsed K} (h : buildParser E P S st coords latt = .ok r) :
    r.indices ≠ [] ∧ (S.specie = none → S.specieIdx ≠ .none ∧ (∀ s, S.specieIdx = .flat s → s.vals ≠ []) ∧
      ∀ ms, S.specieIdx = .mols ms → ms ≠ []) := by
  obtain ⟨coords', sel, w, disp, r0, hsel, hdisp, hinit, rfl⟩ := buildParser_inv h
  have := selectAtoms_ok hsel
  obtain ⟨-, -, -, hidx, -⟩ := parserInit_inv hinit
  exact ⟨by dsimp only; rw [hidx]; exact this.1, this.2⟩

/-- **C74 (ASE and pymatgen).** `build` is either constructor: an empty trajectory, no selection, an empty index list and an
empty list of molecules raise; a constructed parser has selected atoms and at least one frame. -/
theorem C74_ase_pymatgen (E : Num K) (P : Params K) (S : Select K) (k : ℤ) (fr : List (Frame K)) (pm : Bool) :
    let build := if pm then pymatgenParser E P S k fr else aseParser E P S k fr
    (fr = [] → Raises build) ∧
    (S.specie = none → S.specieIdx = .none → Raises build) ∧
    (S.specie = none → ∀ t, S.specieIdx = .flat ⟨t, []⟩ → Raises build) ∧
    (S.specie = none → S.specieIdx = .mols [] → Raises build) ∧
    ∀ r, build = .ok r → r.indices ≠ [] ∧ fr ≠ [] := by
  intro build
  have key : ∀ r, build = .ok r → fr ≠ [] ∧ r.indices ≠ [] ∧ (S.specie = none → S.specieIdx ≠ .none ∧
      (∀ s, S.specieIdx = .flat s → s.vals ≠ []) ∧ ∀ ms, S.specieIdx = .mols ms → ms ≠ []) := by
    intro r h
    simp only [build] at h
    cases pm with
    | false =>
      simp only [Bool.false_eq_true, if_false] at h
      unfold aseParser at h
      cases ht : pyStride k fr with
      | error e => rw [ht] at h; cases h
      | ok thin =>
      rw [ht] at h
      simp only [bind, Except.bind] at h
      cases thin with
      | nil => cases h
      | cons f0 rest =>
      refine ⟨?_, buildParser_ok h⟩
      rintro rfl
      by_cases hk : k = 0
      · subst hk; cases ht
      · rw [pyStride_nil hk] at ht; cases ht
    | true =>
      simp only [if_true] at h
      unfold pymatgenParser at h
      cases ht : pyStride k fr with
      | error e => rw [ht] at h; cases h
      | ok thin =>
      rw [ht] at h
      simp only [bind, Except.bind] at h
      cases thin with
      | nil => cases h
      | cons f0 rest =>
      simp only [structureCoordsLatt] at h
      cases hb : buildParser E { P with stepSkip := P.stepSkip.mul E.fl (.int k) } S f0 (f0.frac :: (f0 :: rest).map Frame.frac)
        (f0.latt :: (f0 :: rest).map Frame.latt) with
      | error e => rw [hb] at h; cases h
      | ok r0 =>
      rw [hb] at h
      simp only at h
      split_ifs at h
      obtain rfl := Except.ok.inj h
      refine ⟨?_, (buildParser_ok hb : r0.indices ≠ [] ∧ _)⟩
      rintro rfl
      by_cases hk : k = 0
      · subst hk; cases ht
      · rw [pyStride_nil hk] at ht; cases ht
  refine ⟨?_, ?_, ?_, ?_, ?_⟩
  · intro h; rw [raises_iff]; intro r hr; exact (key r hr).1 h
  · intro hs h; rw [raises_iff]; intro r hr; exact ((key r hr).2.2 hs).1 h
  · intro hs t h; rw [raises_iff]; intro r hr; exact ((key r hr).2.2 hs).2.1 _ h rfl
  · intro hs h; rw [raises_iff]; intro r hr; exact ((key r hr).2.2 hs).2.2 _ h rfl
  · intro r hr; exact ⟨(key r hr).2.1, (key r hr).1⟩

/-- **C74 (MDAnalysis).** Also `sub_sample_atoms` together with `specie_indices` is a ValueError. -/
theorem C74_mda (E : Num K) (P : Params K) (S : Select K) (ka k : ℤ) (types : List String) (fr : List (MdaFrame K)) :
    (fr = [] → Raises (mdaParser E P S ka k types fr)) ∧
    (S.specie = none → S.specieIdx = .none → Raises (mdaParser E P S ka k types fr)) ∧
    (S.specie = none → ∀ t, S.specieIdx = .flat ⟨t, []⟩ → Raises (mdaParser E P S ka k types fr)) ∧
    (S.specie = none → S.specieIdx = .mols [] → Raises (mdaParser E P S ka k types fr)) ∧
    (ka ≠ 1 → S.specieIdx ≠ .none → mdaParser E P S ka k types fr = .error .valueError) ∧
    ∀ r, mdaParser E P S ka k types fr = .ok r → r.indices ≠ [] ∧ fr ≠ [] := by
  have key : ∀ r, mdaParser E P S ka k types fr = .ok r → fr ≠ [] ∧ r.indices ≠ [] ∧ (S.specie = none → S.specieIdx ≠ .none ∧
      (∀ s, S.specieIdx = .flat s → s.vals ≠ []) ∧ ∀ ms, S.specieIdx = .mols ms → ms ≠ []) := by
    intro r h
    unfold mdaParser at h
    dsimp only at h
    split_ifs at h
    cases ht : pyStride k fr with
    | error e => rw [ht] at h; cases h
    | ok thin =>
    rw [ht] at h
    simp only [bind, Except.bind] at h
    cases hm : thin.mapM (mdaFrame types ka) with
    | error e => rw [hm] at h; cases h
    | ok read =>
    rw [hm] at h
    simp only at h
    cases read with
    | nil => cases h
    | cons f0 rest =>
    refine ⟨?_, buildParser_ok h⟩
    rintro rfl
    by_cases hk : k = 0
    · subst hk; cases ht
    · rw [pyStride_nil hk] at ht
      obtain rfl := Except.ok.inj ht
      cases hm
  refine ⟨?_, ?_, ?_, ?_, ?_, ?_⟩
  · intro h; rw [raises_iff]; intro r hr; exact (key r hr).1 h
  · intro hs h; rw [raises_iff]; intro r hr; exact ((key r hr).2.2 hs).1 h
  · intro hs t h; rw [raises_iff]; intro r hr; exact ((key r hr).2.2 hs).2.1 _ h rfl
  · intro hs h; rw [raises_iff]; intro r hr; exact ((key r hr).2.2 hs).2.2 _ h rfl
  · intro hka hsi
    unfold mdaParser
    cases h : S.specieIdx with
    | none => exact absurd h hsi
    | flat s => simp [hka]
    | mols ms => simp [hka]
  · intro r hr; exact ⟨(key r hr).2.1, (key r hr).1⟩

example : ∃ e, aseParser exNum exParams { exSelect with specie := none } 1 exTraj = .error e :=
  (C74_ase_pymatgen exNum exParams { exSelect with specie := none } 1 exTraj false).2.1 rfl rfl

/-! ## C75 -/

/-- **C75.** Reading every `k`-th atom of a universe is the same as reading all atoms of the universe that contains only
these atoms (their types and, in every frame, their positions): same outcome, exceptions included. -/
theorem C75_sub_sample_atoms (E : Num K) (P : Params K) (S : Select K) (k : ℕ) (hk : 0 < k) (sub : ℤ) (types : List String)
    (fr : List (MdaFrame K)) (hidx : S.specieIdx = .none) :
    mdaParser E P S k sub types fr =
      mdaParser E P S 1 sub (stride k types) (fr.map fun f => { f with pos := stride k f.pos }) := by
  have hstr : ∀ (l : List (MdaFrame K)), pyStride sub (l.map fun f => { f with pos := stride k f.pos }) =
      (pyStride sub l).map fun l => l.map fun f => { f with pos := stride k f.pos } := by
    intro l
    unfold pyStride
    by_cases h0 : sub = 0
    · rw [if_pos h0, if_pos h0]; rfl
    · rw [if_neg h0, if_neg h0]
      by_cases h1 : 0 < sub
      · rw [if_pos h1, if_pos h1, stride_map _ (by omega)]; rfl
      · rw [if_neg h1, if_neg h1, ← List.map_reverse, stride_map _ (by omega)]; rfl
  have hframe : ∀ f : MdaFrame K, mdaFrame (stride k types) 1 { f with pos := stride k f.pos } = mdaFrame types k f := by
    intro f
    have h1 : ∀ {α : Type} (l : List α), pyStride (k : ℤ) l = .ok (stride k l) := by
      intro α l
      unfold pyStride
      rw [if_neg (by omega), if_pos (by omega)]
      simp
    unfold mdaFrame
    simp only [pyStride_one, h1]
  unfold mdaParser
  rw [hidx, hstr]
  simp only [Bool.and_false, Bool.false_eq_true, if_false]
  cases pyStride sub fr with
  | error e => rfl
  | ok thin =>
  simp only [bind, Except.bind, Except.map]
  have hm : (thin.map fun f => { f with pos := stride k f.pos }).mapM (mdaFrame (stride k types) 1) =
      thin.mapM (mdaFrame types k) := by
    rw [List.mapM_map]
    congr 1
    funext f
    exact hframe f
  rw [hm]

/-- The universe that is left contains the atoms `0, k, 2k, …`. -/
theorem C75_kept_atoms {α : Type} (k : ℕ) (hk : 0 < k) (l : List α) (i : ℕ) : (stride k l)[i]? = l[k * i]? :=
  stride_getElem? k hk l i

/-- Two atoms of three kept, two frames. -/
example : ∃ r, mdaParser exNum exParams exSelect 2 1 ["Li", "O", "Li"]
      [⟨[![0, 0, 0], ![5, 5, 5], ![9, 0, 0]], exBox, 1000⟩, ⟨[![1, 0, 0], ![5, 5, 5], ![1, 0, 0]], exBox, 1000⟩] = .ok r ∧
    mdaParser exNum exParams exSelect 1 1 ["Li", "Li"]
      [⟨[![0, 0, 0], ![9, 0, 0]], exBox, 1000⟩, ⟨[![1, 0, 0], ![1, 0, 0]], exBox, 1000⟩] = .ok r := by
  obtain ⟨r, hr⟩ := ok_of_isSome (x := mdaParser exNum exParams exSelect 2 1 ["Li", "O", "Li"]
      [⟨[![0, 0, 0], ![5, 5, 5], ![9, 0, 0]], exBox, 1000⟩, ⟨[![1, 0, 0], ![5, 5, 5], ![1, 0, 0]], exBox, 1000⟩])
    (by decide +kernel)
  refine ⟨r, hr, ?_⟩
  have := C75_sub_sample_atoms exNum exParams exSelect 2 (by norm_num) 1 ["Li", "O", "Li"]
      [⟨[![0, 0, 0], ![5, 5, 5], ![9, 0, 0]], exBox, 1000⟩, ⟨[![1, 0, 0], ![5, 5, 5], ![1, 0, 0]], exBox, 1000⟩] rfl
  push_cast at this
  rw [hr] at this
  exact this.symm

/-! ### The remaining theorems for concrete input -/

/-- Five frames of three atoms in Cartesian coordinates. -/
def exMda : List (MdaFrame ℚ) := (List.range 5).map fun j => ⟨[![(j : ℚ) ^ 2 / 5, 0, 0], ![5, 5, 5], ![10 - (j : ℚ) ^ 2 / 5, 0, 0]], exBox, 1000⟩

theorem exParsed_intervals {x : PyM (Parsed ℚ)} {l : List ℤ} (hd : x.toOption.map Parsed.intervals = some l) :
    ∃ r, x = .ok r ∧ r.intervals = l := by
  cases x with
  | error e => cases hd
  | ok r => exact ⟨r, rfl, Option.some.inj hd⟩

/-- `C13_ase_partial`, `C13_pymatgen_partial`, `C13_mda_partial`, every second frame. -/
example : (∃ r thin, aseParser exNum exParams exSelect 2 exTraj = .ok r ∧ pyStride 2 exTraj = .ok thin ∧
      ∃ nat : List ℕ, r.intervals = nat.map (fun τ : ℕ => (τ : ℤ)) ∧ ∀ τ ∈ nat, 1 ≤ τ ∧ τ ≤ thin.length) ∧
    (∃ r thin, pymatgenParser exNum exParams exSelect 2 exTraj = .ok r ∧ pyStride 2 exTraj = .ok thin ∧
      ∃ nat : List ℕ, r.intervals = nat.map (fun τ : ℕ => (τ : ℤ)) ∧ ∀ τ ∈ nat, 1 ≤ τ ∧ τ ≤ thin.length) ∧
    ∃ r thin, mdaParser exNum exParams exSelect 1 2 ["Li", "O", "Li"] exMda = .ok r ∧ pyStride 2 exMda = .ok thin ∧
      ∃ nat : List ℕ, r.intervals = nat.map (fun τ : ℕ => (τ : ℤ)) := by
  refine ⟨?_, ?_, ?_⟩
  · obtain ⟨r, hr, hi⟩ := exParsed_intervals (x := aseParser exNum exParams exSelect 2 exTraj) (l := [1, 2, 3]) (by decide +kernel)
    obtain ⟨thin, f0, coords, sel, n, p, nat, h1, -, -, -, h2, h3, -⟩ := C13_ase_partial exNum exParams exSelect 2 exTraj r rfl hr
      (by rw [hi]; decide)
    exact ⟨r, thin, hr, h1, nat, h2, h3⟩
  · obtain ⟨r, hr, hi⟩ := exParsed_intervals (x := pymatgenParser exNum exParams exSelect 2 exTraj) (l := [1, 2, 3]) (by decide +kernel)
    obtain ⟨thin, f0, coords, sel, n, p, nat, h1, -, -, -, h2, h3, -⟩ := C13_pymatgen_partial exNum exParams exSelect 2 exTraj r rfl hr
      (by rw [hi]; decide)
    exact ⟨r, thin, hr, h1, nat, h2, h3⟩
  · obtain ⟨r, hr, hi⟩ := exParsed_intervals (x := mdaParser exNum exParams exSelect 1 2 ["Li", "O", "Li"] exMda) (l := [1, 2, 3])
      (by decide +kernel)
    obtain ⟨thin, read, f0, coords, sel, n, p, nat, h1, -, -, -, -, h2, -⟩ := C13_mda_partial exNum exParams exSelect 1 2 ["Li", "O", "Li"] exMda
      r rfl hr (by rw [hi]; decide)
    exact ⟨r, thin, hr, h1, nat, h2⟩

/-- `C18_mda` and `C18_ase_partial`: with every second frame the times are 12, 24, 36 for MDAnalysis and 6, 12, 18 for ASE. -/
example : (∃ r, mdaParser exNum exParams exSelect 1 2 ["Li", "O", "Li"] exMda = .ok r ∧ r.deltaT = [12, 24, 36]) ∧
    ∃ r, aseParser exNum exParams exSelect 2 exTraj = .ok r ∧ r.deltaT = [6, 12, 18] := by
  constructor
  · obtain ⟨r, hr, hi⟩ := exParsed_intervals (x := mdaParser exNum exParams exSelect 1 2 ["Li", "O", "Li"] exMda) (l := [1, 2, 3])
      (by decide +kernel)
    refine ⟨r, hr, ?_⟩
    rw [C18_mda exNum exParams exSelect rfl 1 2 _ exMda r hr, hi]
    decide +kernel
  · obtain ⟨r, hr, hi⟩ := exParsed_intervals (x := aseParser exNum exParams exSelect 2 exTraj) (l := [1, 2, 3]) (by decide +kernel)
    refine ⟨r, hr, ?_⟩
    rw [C18_ase_partial exNum exParams exSelect rfl 2 exTraj r hr, hi]
    decide +kernel

/-- `C19_ase_partial`, `C19_mda_partial`: `time_step=2` and `time_step=2.0`. -/
example : (∃ r, aseParser exNum { exParams with timeStep := .int 2 } exSelect 1 exTraj = .ok r ∧
      aseParser exNum { exParams with timeStep := .float ((2 : ℤ) : ℚ) } exSelect 1 exTraj = .ok (asFloat r)) ∧
    ∃ r, mdaParser exNum { exParams with timeStep := .int 2 } exSelect 1 1 ["Li", "O", "Li"] exMda = .ok r ∧
      mdaParser exNum { exParams with timeStep := .float ((2 : ℤ) : ℚ) } exSelect 1 1 ["Li", "O", "Li"] exMda = .ok (asFloat r) := by
  constructor
  · obtain ⟨r, hr⟩ := ok_of_isSome (x := aseParser exNum { exParams with timeStep := .int 2 } exSelect 1 exTraj) (by decide +kernel)
    refine ⟨r, hr, ?_⟩
    rw [C19_ase_partial exNum rfl exParams, hr]
    rfl
  · obtain ⟨r, hr⟩ := ok_of_isSome (x := mdaParser exNum { exParams with timeStep := .int 2 } exSelect 1 1 ["Li", "O", "Li"] exMda)
      (by decide +kernel)
    refine ⟨r, hr, ?_⟩
    rw [C19_mda_partial exNum rfl exParams, hr]
    rfl

/-- `C71_indices_partial`: the atoms 2 and 0, as list and as tuple. -/
example : selectAtoms exNum.trig ["Li", "O", "Li"] (exTraj.map Frame.frac)
      ⟨none, .flat ⟨true, [2, 0]⟩, none, none⟩ =
    selectAtoms exNum.trig ["Li", "O", "Li"] (exTraj.map Frame.frac) ⟨none, .flat ⟨false, [2, 0]⟩, none, none⟩ ∧
    (selectAtoms exNum.trig ["Li", "O", "Li"] (exTraj.map Frame.frac)
      ⟨none, .flat ⟨false, [2, 0]⟩, none, none⟩).toOption.isSome = true :=
  ⟨(C71_indices_partial exNum.trig ["Li", "O", "Li"] (exTraj.map Frame.frac) ⟨none, .flat ⟨false, [2, 0]⟩, none, none⟩ rfl
    false true).2 ⟨false, [2, 0]⟩ rfl, by decide +kernel⟩

/-- `C72_mda`, `C72_thinned_frames`, `C72_ase_partial`: every second frame. -/
example : (∃ r, mdaParser exNum exParams exSelect 1 2 ["Li", "O", "Li"] exMda = .ok r ∧
      ∃ thin, (∀ i, thin[i]? = exMda[2 * i]?) ∧ mdaParser exNum { exParams with stepSkip := .int 6 } exSelect 1 1 ["Li", "O", "Li"] thin = .ok r) ∧
    ∃ r, aseParser exNum exParams exSelect 2 exTraj = .ok r ∧ aseParser exNum exParams exSelect 1 [exFrame 0, exFrame 2, exFrame 4] = .ok r := by
  constructor
  · obtain ⟨r, hr⟩ := ok_of_isSome (x := mdaParser exNum exParams exSelect 1 2 ["Li", "O", "Li"] exMda) (by decide +kernel)
    obtain ⟨thin, ht, hi⟩ := C72_thinned_frames 2 (by decide) exMda
    refine ⟨r, hr, thin, hi, ?_⟩
    have := C72_mda exNum exParams exSelect 1 2 ["Li", "O", "Li"] exMda thin (.inl rfl) ht
    rw [hr] at this
    exact this.symm
  · obtain ⟨r, hr⟩ := ok_of_isSome (x := aseParser exNum exParams exSelect 2 exTraj) (by decide +kernel)
    refine ⟨r, hr, ?_⟩
    have := C72_ase_partial exNum exParams exSelect 2 exTraj [exFrame 0, exFrame 2, exFrame 4] rfl
    rw [hr] at this
    exact this.symm

end Kinisi
