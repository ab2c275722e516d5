import Verif.Props.Results
import Verif.Props.Bootstrap
import Verif.Props.Selected
import Verif.Props.Arrhenius
import Verif.Props.PersistAnalyzer

/-!
# C142: which exception a wrong argument raises
-/

set_option linter.unusedSectionVars false
set_option linter.unusedVariables false

namespace Kinisi
open Spec
variable {K : Type} [Field K] [LinearOrder K] [IsStrictOrderedRing K] [FloorRing K] {G : Type}

/-- None of the three analyzers is built, whatever the other arguments; the exception is `e`. -/
def AllRaise (G : Type) (e : PyErr) (base : PyM (Base K)) : Prop :=
  ∀ (sq : K → K) (o : Oracle K G) (g : G) (U : UncParams K) (charge : Charge K), diffusionAnalyzer sq o g U base = .error e ∧
    jumpAnalyzer sq o g U base = .error e ∧ conductivityAnalyzer sq o g U charge base = .error e

theorem allRaise_of {e : PyErr} {base : PyM (Base K)} (h : base = .error e) : AllRaise G e base := by
  subst h
  exact fun _ _ _ _ _ => ⟨rfl, rfl, rfl⟩

/-! ### Trajectories -/

theorem pyStride_cons {α : Type} {k : ℤ} (hk : k ≠ 0) {l : List α} (hl : l ≠ []) : ∃ f rest, pyStride k l = .ok (f :: rest) := by
  have key : ∀ (n : ℕ) (l : List α), 0 < n → l ≠ [] → ∃ f rest, stride n l = f :: rest := by
    intro n l hn hl
    have h := stride_head hn l
    cases hs : stride n l with
    | nil =>
      rw [hs] at h
      exact absurd (List.head?_eq_none_iff.mp h.symm) hl
    | cons f rest => exact ⟨f, rest, rfl⟩
  unfold pyStride
  rw [if_neg hk]
  split_ifs with h1
  · obtain ⟨f, rest, h⟩ := key k.toNat l (by omega) hl
    exact ⟨f, rest, by rw [h]⟩
  · obtain ⟨f, rest, h⟩ := key k.natAbs l.reverse (by omega) (by simpa using hl)
    exact ⟨f, rest, by rw [h]⟩

/-- A wrong selection is noticed by all three readers. -/
theorem selection_raises {E : Num K} {P : Params K} {S : Select K} {k : ℤ} (hk : k ≠ 0) {e : PyErr}
    (he : ∀ tr sy co, selectAtoms tr sy co S = .error (e : PyErr)) :
    (∀ fr : List (Frame K), fr ≠ [] → fromAse E P S k none (.one fr) = .error e ∧ fromPymatgen E P S k none (.one fr) = .error e) ∧
    ∀ uni : Universe K, uni.2 ≠ [] → (∀ f ∈ uni.2, NonSingular f.latt) → fromUniverse E P S 1 k none (.one uni) = .error e := by
  have hb : ∀ (P : Params K) f c l, buildParser E P S f c l = .error e := by
    intro P f c l
    unfold buildParser
    rw [he]
    rfl
  refine ⟨fun fr hfr => ?_, fun uni hne hs => ?_⟩
  · obtain ⟨f, rest, h⟩ := pyStride_cons hk hfr
    constructor
    · simp only [fromAse, analyzerFrom, Traj.asOne, bind, Except.bind, aseParser, h, structureCoordsLatt, hb]
    · simp only [fromPymatgen, analyzerFrom, Traj.asOne, bind, Except.bind, pymatgenParser, h, structureCoordsLatt, hb]
  · obtain ⟨f, rest, h⟩ := pyStride_cons hk hne
    have hr : ∀ x ∈ f :: rest, ∃ v, mdaFrame uni.1 1 x = .ok v := by
      intro x hx
      have : det3 x.latt ≠ 0 := by rw [det3_eq_det]; exact hs x (pyStride_mem h hx)
      unfold mdaFrame
      simp only [pyStride_one, bind, Except.bind, inv3_ok this]
      exact ⟨_, rfl⟩
    obtain ⟨vs, hvs, hlen⟩ := mapM_runs hr
    obtain ⟨v, vs', rfl⟩ : ∃ v vs', vs = v :: vs' := by
      cases vs with
      | nil => simp at hlen
      | cons v vs' => exact ⟨v, vs', rfl⟩
    simp only [fromUniverse, analyzerFrom, Traj.asOne, bind, Except.bind, mdaParser, ne_eq, not_true_eq_false, decide_false, Bool.false_and,
      Bool.false_eq_true, ↓reduceIte, h, hvs, structureCoordsLatt, hb]

/-- **C142 (no atoms are named).** Neither `specie` nor `specie_indices` is a TypeError, an empty list or tuple of indices and an empty list
of molecules are an IndexError, for every trajectory that can be read. -/
theorem C142_atoms (E : Num K) (P : Params K) (S : Select K) (hsp : S.specie = none) (k : ℤ) (hk : k ≠ 0) (e : PyErr)
    (he : S.specieIdx = .none ∧ e = .typeError ∨ (∃ t, S.specieIdx = .flat ⟨t, []⟩) ∧ e = .indexError ∨ S.specieIdx = .mols [] ∧ e = .indexError) :
    (∀ fr : List (Frame K), fr ≠ [] → AllRaise G e (fromAse E P S k none (.one fr)) ∧ AllRaise G e (fromPymatgen E P S k none (.one fr))) ∧
    ∀ uni : Universe K, uni.2 ≠ [] → (∀ f ∈ uni.2, NonSingular f.latt) → AllRaise G e (fromUniverse E P S 1 k none (.one uni)) := by
  have hsel : ∀ tr sy co, selectAtoms tr sy co S = .error e := by
    intro tr sy co
    unfold selectAtoms
    rw [hsp]
    rcases he with ⟨h, rfl⟩ | ⟨⟨t, h⟩, rfl⟩ | ⟨h, rfl⟩ <;> rw [h] <;> rfl
  obtain ⟨h1, h2⟩ := selection_raises (E := E) (P := P) hk hsel
  exact ⟨fun fr hfr => ⟨allRaise_of (h1 fr hfr).1, allRaise_of (h1 fr hfr).2⟩, fun uni hne hs => allRaise_of (h2 uni hne hs)⟩

/-- The same where the selection is only wrong for frames that have equally many atoms. -/
theorem selection_raises_equal {E : Num K} {P : Params K} {S : Select K} {k : ℤ} (hk : k ≠ 0) {e : PyErr} {N : ℕ}
    (he : ∀ tr sy co, (∀ c ∈ co, c.length = N) → selectAtoms tr sy co S = .error (e : PyErr)) :
    (∀ fr : List (Frame K), fr ≠ [] → (∀ f ∈ fr, f.frac.length = N) → fromAse E P S k none (.one fr) = .error e ∧ fromPymatgen E P S k none (.one fr) = .error e) ∧
    ∀ uni : Universe K, uni.2 ≠ [] → (∀ f ∈ uni.2, NonSingular f.latt) → (∀ f ∈ uni.2, f.pos.length = N) → fromUniverse E P S 1 k none (.one uni) = .error e := by
  have hb : ∀ (P : Params K) f c l, (∀ x ∈ c, x.length = N) → buildParser E P S f c l = .error e := by
    intro P f c l hc
    unfold buildParser
    rw [he _ _ _ hc]
    rfl
  refine ⟨fun fr hfr hN => ?_, fun uni hne hs hN => ?_⟩
  · obtain ⟨f, rest, h⟩ := pyStride_cons hk hfr
    have hc : ∀ x ∈ f.frac :: (f :: rest).map Frame.frac, x.length = N := by
      intro x hx
      have key : ∀ y ∈ f :: rest, y.frac.length = N := fun y hy => hN y (pyStride_mem h hy)
      rcases List.mem_cons.1 hx with rfl | hx
      · exact key f (by simp)
      · obtain ⟨y, hy, rfl⟩ := List.mem_map.1 hx
        exact key y hy
    constructor
    · simp only [fromAse, analyzerFrom, Traj.asOne, bind, Except.bind, aseParser, h, structureCoordsLatt, hb _ _ _ _ hc]
    · simp only [fromPymatgen, analyzerFrom, Traj.asOne, bind, Except.bind, pymatgenParser, h, structureCoordsLatt, hb _ _ _ _ hc]
  · obtain ⟨f, rest, h⟩ := pyStride_cons hk hne
    have hr : ∀ x ∈ f :: rest, ∃ v, mdaFrame uni.1 1 x = .ok v ∧ v.frac.length = N := by
      intro x hx
      have : det3 x.latt ≠ 0 := by rw [det3_eq_det]; exact hs x (pyStride_mem h hx)
      unfold mdaFrame
      simp only [pyStride_one, bind, Except.bind, inv3_ok this]
      exact ⟨_, rfl, by simp [hN x (pyStride_mem h hx)]⟩
    obtain ⟨vs, hvs, hlen⟩ := mapM_runs fun x hx => (hr x hx).imp fun v hv => hv.1
    have hv : ∀ v ∈ vs, v.frac.length = N := by
      intro v hv
      obtain ⟨i, hi, rfl⟩ := List.getElem_of_mem hv
      have e := (mapM_except_inv hvs).2 i (by omega) hi
      obtain ⟨w, w1, w2⟩ := hr _ (List.getElem_mem (show i < (f :: rest).length by omega))
      rw [e] at w1
      rw [Except.ok.inj w1]
      exact w2
    obtain ⟨v, vs', rfl⟩ : ∃ v vs', vs = v :: vs' := by
      cases vs with
      | nil => simp at hlen
      | cons v vs' => exact ⟨v, vs', rfl⟩
    have hc : ∀ x ∈ v.frac :: (v :: vs').map Frame.frac, x.length = N := by
      intro x hx
      rcases List.mem_cons.1 hx with rfl | hx
      · exact hv v (by simp)
      · obtain ⟨y, hy, rfl⟩ := List.mem_map.1 hx
        exact hv y hy
    simp only [fromUniverse, analyzerFrom, Traj.asOne, bind, Except.bind, mdaParser, ne_eq, not_true_eq_false, decide_false, Bool.false_and,
      Bool.false_eq_true, ↓reduceIte, h, hvs, structureCoordsLatt, hb _ _ _ _ hc]

/-- **C142 (molecules).** Molecules with different numbers of atoms and masses that are more or fewer than the atoms of a molecule are a ValueError; molecules without atoms are an IndexError. -/
theorem C142_molecules (E : Num K) (P : Params K) (S : Select K) (hsp : S.specie = none) (mols : List (List ℤ)) (hm : S.specieIdx = .mols mols) (k : ℤ) (hk : k ≠ 0) (e : PyErr) (N : ℕ)
    (he : (∃ m ∈ mols, ∃ m' ∈ mols, m.length ≠ m'.length) ∧ e = .valueError ∨ (∃ w m, S.masses = some w ∧ m ∈ mols ∧ w.length ≠ m.length) ∧ e = .valueError ∨
      mols ≠ [] ∧ (∀ m ∈ mols, m = []) ∧ (S.masses = none ∨ S.masses = some []) ∧ e = .indexError) :
    (∀ fr : List (Frame K), fr ≠ [] → (∀ f ∈ fr, f.frac.length = N) → AllRaise G e (fromAse E P S k none (.one fr)) ∧ AllRaise G e (fromPymatgen E P S k none (.one fr))) ∧
    ∀ uni : Universe K, uni.2 ≠ [] → (∀ f ∈ uni.2, NonSingular f.latt) → (∀ f ∈ uni.2, f.pos.length = N) → AllRaise G e (fromUniverse E P S 1 k none (.one uni)) := by
  have hsel : ∀ tr sy co, (∀ c ∈ co, c.length = N) → selectAtoms tr sy co S = .error e := by
    intro tr sy co hco
    unfold selectAtoms
    rw [hsp, hm]
    simp only
    have hne : mols ≠ [] := by
      rcases he with ⟨⟨m, h, _⟩, _⟩ | ⟨⟨w, m, _, h, _⟩, _⟩ | ⟨h, _⟩
      · exact List.ne_nil_of_mem h
      · exact List.ne_nil_of_mem h
      · exact h
    rw [if_neg (by rwa [List.length_eq_zero_iff])]
    unfold getMolecules
    dsimp only
    have hall : (mols.all (fun m => decide (m.length = (mols.headD []).length)) = false) ↔ ∃ m ∈ mols, m.length ≠ (mols.headD []).length := by
      rw [List.all_eq_false]
      simp
    have hcoords : ¬ (co.all (fun c => decide (c.length = (co.headD []).length)) = false) := by
      rw [Bool.not_eq_false, List.all_eq_true]
      intro c hc
      have : (co.headD []).length = N := by
        cases co with
        | nil => cases hc
        | cons c' co => exact hco c' (by simp)
      rw [hco c hc, this]
      simp
    have hhead : mols.headD [] ∈ mols := by
      cases mols with
      | nil => exact absurd rfl hne
      | cons m l => simp
    rcases he with ⟨⟨m, h1, m', h2, h3⟩, rfl⟩ | ⟨⟨w, m, h1, h2, h3⟩, rfl⟩ | ⟨_, h1, h2, rfl⟩
    · rw [if_pos]
      rw [hall]
      by_cases h : m.length = (mols.headD []).length
      · exact ⟨m', h2, fun h' => h3 (h.trans h'.symm)⟩
      · exact ⟨m, h1, h⟩
    · by_cases h : mols.all (fun m => decide (m.length = (mols.headD []).length)) = false
      · rw [if_pos h]
      · rw [if_neg h, if_pos]
        rw [h1]
        rw [Bool.not_eq_false, List.all_eq_true] at h
        have := of_decide_eq_true (h m h2)
        simp only [massesFit, decide_eq_false_iff_not]
        rw [← this]
        exact h3
    · have h0 : (mols.headD []).length = 0 := by rw [h1 _ hhead]; rfl
      rw [if_neg, if_neg, if_neg hcoords, if_pos h0]
      · rw [h0]
        rcases h2 with h2 | h2 <;> rw [h2] <;> simp [massesFit]
      · rw [hall, h0]
        rintro ⟨m, hm, h⟩
        exact h (by rw [h1 m hm]; rfl)
  obtain ⟨h1, h2⟩ := selection_raises_equal (E := E) (P := P) hk hsel
  exact ⟨fun fr hfr hN => ⟨allRaise_of (h1 fr hfr hN).1, allRaise_of (h1 fr hfr hN).2⟩, fun uni hne hs hN => allRaise_of (h2 uni hne hs hN)⟩

/-- `C142_molecules`: two molecules without atoms, and two of different length. -/
example : (∃ N, ∀ f ∈ exTraj, f.frac.length = N) ∧ exTraj ≠ [] ∧
    AllRaise ℕ .indexError (fromAse exNum exShort { exSelect with specie := none, specieIdx := .mols [[], []] } 1 none (.one exTraj)) ∧
    AllRaise ℕ .valueError (fromPymatgen exNum exShort { exSelect with specie := none, specieIdx := .mols [[1], [1, 2]] } 1 none (.one exTraj)) := by
  have hN : ∀ f ∈ exTraj, f.frac.length = (exFrame 0).frac.length := by decide +kernel
  refine ⟨⟨_, hN⟩, by decide +kernel, ?_, ?_⟩
  · exact ((C142_molecules exNum exShort { exSelect with specie := none, specieIdx := .mols [[], []] } rfl _ rfl 1 one_ne_zero .indexError _ (.inr (.inr ⟨by simp, by simp, .inl rfl, rfl⟩))).1 exTraj (by decide +kernel) hN).1
  · exact ((C142_molecules exNum exShort { exSelect with specie := none, specieIdx := .mols [[1], [1, 2]] } rfl _ rfl 1 one_ne_zero .valueError _ (.inl ⟨⟨[1], by simp, [1, 2], by simp, by decide⟩, rfl⟩)).1 exTraj (by decide +kernel) hN).2

/-- A selection that names nothing. -/
def exNobody : Select ℚ := { exSelect with specie := none, specieIdx := .none }

example : exNobody.specie = none ∧ exNobody.specieIdx = .none ∧ exTraj ≠ [] ∧
    (fromAse exNum exShort exNobody 1 none (.one exTraj)) = .error .typeError := by
  refine ⟨rfl, rfl, by decide +kernel, ?_⟩
  exact ((selection_raises (E := exNum) (P := exShort) (S := exNobody) (k := 1) one_ne_zero (e := .typeError) fun _ _ _ => rfl).1 exTraj (by decide +kernel)).1

/-- **C142 (no frames).** `sub_sample_traj=0` is a ValueError, an empty trajectory an IndexError, also with `dtype='consecutive'` (for
frames) and as one of several trajectories with `dtype='identical'` that come first; so is an empty list of trajectories. -/
theorem C142_frames (E : Num K) (P : Params K) (S : Select K) (k : ℤ) (e : PyErr) (fr : List (Frame K)) (uni : Universe K)
    (he : k = 0 ∧ e = .valueError ∨ k ≠ 0 ∧ fr = [] ∧ uni.2 = [] ∧ e = .indexError) (xs : List (List (Frame K))) (us : List (Universe K))
    (hx : xs.flatten = fr) :
    AllRaise G e (fromAse E P S k none (.one fr)) ∧ AllRaise G e (fromPymatgen E P S k none (.one fr)) ∧
    AllRaise G e (fromUniverse E P S 1 k none (.one uni)) ∧
    AllRaise G e (fromAse E P S k (some "consecutive") (.several xs)) ∧ AllRaise G e (fromPymatgen E P S k (some "consecutive") (.several xs)) ∧
    AllRaise G e (fromAse E P S k (some "identical") (.several (fr :: xs))) ∧
    AllRaise G e (fromPymatgen E P S k (some "identical") (.several (fr :: xs))) ∧
    AllRaise G e (fromUniverse E P S 1 k (some "identical") (.several (uni :: us))) ∧
    AllRaise G .indexError (fromAse E P S k (some "identical") (.several [])) ∧
    AllRaise G .indexError (fromPymatgen E P S k (some "identical") (.several [])) ∧
    AllRaise G .indexError (fromUniverse E P S 1 k (some "identical") (.several [])) := by
  have ha : aseParser E P S k fr = .error e := by
    rcases he with ⟨rfl, rfl⟩ | ⟨hk, rfl, -, rfl⟩
    · rfl
    · simp only [aseParser, pyStride_nil hk, bind, Except.bind, structureCoordsLatt]
  have hp : pymatgenParser E P S k fr = .error e := by
    rcases he with ⟨rfl, rfl⟩ | ⟨hk, rfl, -, rfl⟩
    · rfl
    · simp only [pymatgenParser, pyStride_nil hk, bind, Except.bind, structureCoordsLatt]
  have hm : mdaParser E P S 1 k uni.1 uni.2 = .error e := by
    rcases he with ⟨rfl, rfl⟩ | ⟨hk, -, h0, rfl⟩
    · simp [mdaParser, pyStride, bind, Except.bind]
    · rw [h0]
      simp [mdaParser, pyStride_nil hk, bind, Except.bind, structureCoordsLatt, pure, Except.pure]
  have hf : flattenList xs = fr := by
    rw [← hx]
    simp [flattenList, List.flatMap]
  refine ⟨allRaise_of ?_, allRaise_of ?_, allRaise_of ?_, allRaise_of ?_, allRaise_of ?_, allRaise_of ?_, allRaise_of ?_, allRaise_of ?_,
    allRaise_of rfl, allRaise_of rfl, allRaise_of rfl⟩
  · simp only [fromAse, analyzerFrom, Traj.asOne, bind, Except.bind, ha]
  · simp only [fromPymatgen, analyzerFrom, Traj.asOne, bind, Except.bind, hp]
  · simp only [fromUniverse, analyzerFrom, Traj.asOne, bind, Except.bind, hm]
  · simp [fromAse, analyzerFrom, Traj.asList, bind, Except.bind, hf, ha]
  · simp [fromPymatgen, analyzerFrom, Traj.asList, bind, Except.bind, hf, hp]
  · simp [fromAse, analyzerFrom, Traj.asList, bind, Except.bind, ha]
  · simp [fromPymatgen, analyzerFrom, Traj.asList, bind, Except.bind, hp]
  · simp [fromUniverse, analyzerFrom, Traj.asList, bind, Except.bind, hm]

example : ((0 : ℤ) = 0 ∧ PyErr.valueError = .valueError) ∧ [exTraj].flatten = exTraj ∧ aseParser exNum exShort exSelect 0 exTraj = .error .valueError :=
  ⟨⟨rfl, rfl⟩, by simp, rfl⟩

/-- **C142 (`sub_sample_dt`).** A step of zero is a ValueError for every trajectory. -/
theorem C142_sub_sample_dt (B : Base K) (sq : K → K) (o : Oracle K G) (g : G) (U : UncParams K) (h0 : U.sub = 0) (charge : Charge K) :
    diffusionAnalyzer sq o g U (.ok B) = .error .valueError ∧ jumpAnalyzer sq o g U (.ok B) = .error .valueError ∧
    conductivityAnalyzer sq o g U charge (.ok B) = .error .valueError := by
  have h : bootInit B.deltaT B.disp3d B.nO U.sub U.dimension = .error .valueError := by
    rw [h0]
    rfl
  refine ⟨?_, ?_, ?_⟩
  · simp only [diffusionAnalyzer, msdBootstrap, bind, Except.bind, h]
  · simp only [jumpAnalyzer, mstdBootstrap, bind, Except.bind, h]
  · simp only [conductivityAnalyzer, mscdBootstrap, bind, Except.bind, h]

/-- The settings of the examples with `sub_sample_dt=0`. -/
def exUncZero : UncParams ℚ := { exUnc with sub := 0 }

example : exUncZero.sub = 0 ∧ (fromAse exNum exShort exSelect 1 none (.one exTraj)).toOption.isSome = true := ⟨rfl, by decide +kernel⟩

/-- **C142 (logarithmic spacing).** `max_dt` below one step is a ValueError. -/
theorem C142_log_zero (fl : K → K) (geo : ℤ → ℤ → ℕ → ℕ → K) (ts ss : PyNum K) (minDt maxDt : K) (n m : ℤ)
    (hm : stepsOf fl ts ss minDt = .ok m) (hb : stepsOf fl ts ss maxDt = .ok 0) :
    getTimeIntervals fl geo ts ss minDt maxDt n "logarithmic" = .error .valueError := by
  unfold getTimeIntervals
  rw [hm, hb]
  simp only [bind, Except.bind]
  rw [if_neg (by decide), if_pos trivial, geomspaceInt, if_pos (.inr rfl)]
  rfl

example : (stepsOf id (.float 1) (.int 2) (4 : ℚ)).toOption = some 2 ∧ (stepsOf id (.float 1) (.int 2) (1 : ℚ)).toOption = some 0 := by
  constructor <;> decide +kernel

/-! ### Statistics -/

/-- **C142 (resampling).** `bootstrap=True` with less than one independent sample (as an integer) in the first interval that has two or
more values is a ValueError. -/
theorem C142_resampling (sq : K → K) (o : Oracle K G) (opt : BootOpts K) (hopt : opt.bootstrap = true) (hres : 1 ≤ opt.nResamples)
    (g : G) (deltaT : List K) (a : Arr3 K) (disp : List (Arr3 K)) (x : K) (nO : List K) (d : String) (hd : d.toLower ∈ acceptedDims)
    (h2 : 2 ≤ a.n0 * a.n1) (hx : pyInt x < 1) : msdBootstrap sq o opt g deltaT (a :: disp) (x :: nO) 1 d = .error .valueError := by
  obtain ⟨sel, hsel⟩ : ∃ sel, dimensionSlice d = .ok sel := by
    unfold dimensionSlice
    have : d.toLower ∈ dimensionality.map Prod.fst := by
      revert hd
      generalize d.toLower = s
      intro hd
      simpa [acceptedDims, dimensionality] using hd
    cases hl : dimensionality.lookup d.toLower with
    | some s => exact ⟨s, rfl⟩
    | none =>
      exfalso
      rw [List.lookup_eq_none_iff] at hl
      obtain ⟨p, hp, he⟩ := List.mem_map.mp this
      have := hl p hp
      simp [he] at this
  have hlen : ∀ axes : List (Fin 3), (dSquared axes a).length = a.n0 * a.n1 := by
    intro axes
    simp [dSquared, List.length_flatMap]
  have hl : ∃ y ys, dSquared sel.axes a = y :: ys := by
    cases hs : dSquared sel.axes a with
    | nil =>
      have := hlen sel.axes
      rw [hs, List.length_nil] at this
      rw [← this] at h2
      exact absurd h2 (by norm_num)
    | cons y ys => exact ⟨y, ys, rfl⟩
  obtain ⟨y, ys, hy⟩ := hl
  obtain ⟨n, hn⟩ : ∃ n, opt.nResamples = n + 1 := ⟨opt.nResamples - 1, by omega⟩
  have hs : sampleUntilNormal o (y :: ys) x opt.nResamples opt.maxResamples opt.alpha g = .error .valueError := by
    unfold sampleUntilNormal
    rw [hn]
    simp only [bootstrapMeans, resampleMean, hx, ↓reduceIte]
  unfold msdBootstrap bootInit
  simp only [pyStride_one, bind, Except.bind, hsel, observeAll]
  rw [List.length_cons, List.range_succ_eq_map, List.foldlM_cons]
  have hobs : ∀ b : Boot K, b.displacements = a :: disp → b.axes = sel.axes →
      observe sq o opt (msdQuantity sel.axes) (x :: nO) (b, g) 0 = .error .valueError := by
    intro b hb1 hb2
    unfold observe
    simp only [bind, Except.bind, hb1, pyGet, List.getElem?_cons_zero, msdQuantity]
    rw [if_neg (by rw [hlen]; omega)]
    simp only [bootstrapBlock, hopt, ↓reduceIte, bind, Except.bind, pyGet, List.getElem?_cons_zero, hy, hs]
  rw [hobs _ rfl rfl]
  rfl

/-- Two atoms over one interval. -/
def exTwoAtoms : Arr3 ℚ := ⟨2, 1, fun i _ => fun j => if j = 0 then i else 0⟩

example : (exBootOpts ℚ).bootstrap = true ∧ 1 ≤ (exBootOpts ℚ).nResamples ∧ "xyz".toLower ∈ acceptedDims ∧ 2 ≤ exTwoAtoms.n0 * exTwoAtoms.n1 ∧ pyInt (1 / 2 : ℚ) < 1 := by
  refine ⟨rfl, by decide, by decide +kernel, by decide, by decide +kernel⟩

/-- **C142 (`ngp_max`).** Without any interval that has two values it is a ValueError. -/
theorem C142_ngp (b : Boot K) (h : b.ngp = []) : ngpMax b = .error .valueError := by
  unfold ngpMax
  rw [h]
  rfl

example : exBoot.ngp = [] := rfl

/-! ### Fits -/

theorem sampleChain_inv {L : GlsLib K} {a : GlsArgs K} {t y : List K} {m : ℕ} {cov : Matrix (Fin m) (Fin m) K} {ch : List (List K)}
    (h : sampleChain L a t y m cov = .ok ch) : ∃ chain, getChain a.nBurn a.thin chain = .ok ch ∧ chain.length = a.nSamples + a.nBurn ∧
      ∀ k, sampleChain L { a with thin := k } t y m cov = getChain a.nBurn k chain := by
  unfold sampleChain at h
  simp only [bind, Except.bind] at h
  have hlen : ∀ (ll : List K → Option K) (n s : ℕ) (ws : List (List K)), (runChain L ll n s ws).length = n := by
    intro ll n
    induction n with
    | zero => intros; rfl
    | succ n ih => intro s ws; simp [runChain, ih]
  cases h1 : L.slogdet m cov with
  | error e => rw [h1] at h; cases h
  | ok ld =>
    rw [h1] at h
    simp only at h
    cases h2 : L.pinvh m cov with
    | error e => rw [h2] at h; cases h
    | ok inv =>
      rw [h2] at h
      simp only at h
      split_ifs at h with h3
      cases h4 : L.linregress t y with
      | error e => rw [h4] at h; cases h
      | ok slope =>
        rw [h4] at h
        simp only at h
        cases h5 : L.minimize (logLikelihood ld inv (fun i : Fin m => t.getD i 0) (fun i : Fin m => y.getD i 0)) (startPoint a.fitIntercept slope) with
        | error e => rw [h5] at h; cases h
        | ok ml =>
          rw [h5] at h
          simp only at h
          cases h6 : L.emceeCheck a.nWalkers ml.length (initialWalkers L a.nWalkers ml) with
          | error e => rw [h6] at h; cases h
          | ok u =>
            rw [h6] at h
            simp only at h
            refine ⟨_, h, hlen _ _ _ _, fun k => ?_⟩
            unfold sampleChain
            simp only [bind, Except.bind, h1, h2, if_neg h3, h4, h5, h6]

/-- **C142 (`thin`).** If a fit runs for some `thin`, the same fit with `thin=0` is a ValueError; gradient, intercept and flatchain stay those
of the fit before. -/
theorem C142_thin (L : GlsLib K) (a : GlsArgs K) (b b' : Boot K) (h : bootstrapGLS L a b = (b', .ok ())) (hpos : 1 ≤ a.nSamples + a.nBurn) :
    (bootstrapGLS L { a with thin := 0 } b).2 = .error .valueError ∧ (bootstrapGLS L { a with thin := 0 } b).1.gradient = b.gradient ∧
    (bootstrapGLS L { a with thin := 0 } b).1.intercept = b.intercept ∧ (bootstrapGLS L { a with thin := 0 } b).1.flatchain = b.flatchain := by
  unfold bootstrapGLS at h ⊢
  have hmk : markFit { a with thin := 0 } b = markFit a b := rfl
  rw [hmk]
  cases hr : diffRegime (markFit a b).dt a.startDt with
  | error e => rw [hr] at h; cases h
  | ok r =>
    rw [hr] at h
    simp only at h ⊢
    unfold fitFrom at h ⊢
    have hg : generateCovariance L { a with thin := 0 } (markFit a b) r = generateCovariance L a (markFit a b) r := rfl
    rw [hg]
    have hkeep : ∀ b2 o, generateCovariance L a (markFit a b) r = (b2, o) → b2.gradient = b.gradient ∧ b2.intercept = b.intercept ∧ b2.flatchain = b.flatchain := by
      intro b2 o hb
      unfold generateCovariance chooseVariances modelBranch at hb
      split at hb <;> rename_i hc
      · split_ifs at hc
        · split at hc
          · obtain ⟨rfl, -⟩ := Prod.mk.inj hc; obtain ⟨rfl, -⟩ := Prod.mk.inj hb; exact ⟨rfl, rfl, rfl⟩
          · split at hc
            · obtain ⟨rfl, -⟩ := Prod.mk.inj hc; obtain ⟨rfl, -⟩ := Prod.mk.inj hb; exact ⟨rfl, rfl, rfl⟩
            · cases hc
        · cases hc
      · split_ifs at hc
        · split at hc
          · cases hc
          · split at hc
            · cases hc
            · obtain ⟨rfl, -⟩ := Prod.mk.inj hc
              split at hb
              · obtain ⟨rfl, -⟩ := Prod.mk.inj hb; exact ⟨rfl, rfl, rfl⟩
              · split at hb <;> (obtain ⟨rfl, -⟩ := Prod.mk.inj hb; exact ⟨rfl, rfl, rfl⟩)
        · obtain ⟨rfl, -⟩ := Prod.mk.inj hc
          split at hb
          · obtain ⟨rfl, -⟩ := Prod.mk.inj hb; exact ⟨rfl, rfl, rfl⟩
          · split at hb <;> (obtain ⟨rfl, -⟩ := Prod.mk.inj hb; exact ⟨rfl, rfl, rfl⟩)
    cases hgc : generateCovariance L a (markFit a b) r with
    | mk b2 o =>
      obtain ⟨k1, k2, k3⟩ := hkeep b2 o hgc
      rw [hgc] at h
      cases o with
      | error e => cases h
      | ok mc =>
        obtain ⟨m, cov⟩ := mc
        simp only at h ⊢
        cases hs : sampleChain L a (b2.dt.drop r) (b2.n.drop r) m cov with
        | error e => rw [hs] at h; cases h
        | ok ch =>
          obtain ⟨chain, -, hl, hk⟩ := sampleChain_inv hs
          rw [hk 0]
          have hz : getChain a.nBurn 0 chain = .error .valueError := by
            unfold getChain
            rw [if_neg (by omega), if_pos rfl]
          rw [hz]
          exact ⟨rfl, k1, k2, k3⟩

example : (bootstrapGLS exLib (exArgs 2 true) exBoot).2.toOption = some () ∧ 1 ≤ (exArgs 2 true).nSamples + (exArgs 2 true).nBurn :=
  ⟨by decide +kernel, by decide⟩

/-- **C142 (`posterior_predictive`).** Before any fit: a TypeError if the number of samples is given, an AttributeError otherwise. -/
theorem C142_predictive_before (rvs : List K → List (List (Option K)) → ℕ → ℕ → List (List K)) (draw : ℕ → ℕ → ℕ) (b : Boot K)
    (h : b.startDt = none) (hg : b.gradient = none) (nPred : ℕ) :
    (∀ k, posteriorPredictive rvs draw b (some k) nPred = .error .typeError) ∧ posteriorPredictive rvs draw b none nPred = .error .attributeError := by
  constructor
  · intro k
    simp [posteriorPredictive, posteriorCount, startOf, h, bind, Except.bind]
  · simp [posteriorPredictive, posteriorCount, samplesOf, hg, bind, Except.bind]

example : exBoot.startDt = none ∧ exBoot.gradient = none := ⟨rfl, rfl⟩

/-- **C142 (`posterior_predictive` for one interval).** If only one interval was fitted, more than one sample per posterior sample is a ValueError. -/
theorem C142_predictive_single (rvs : List K → List (List (Option K)) → ℕ → ℕ → List (List K)) (draw : ℕ → ℕ → ℕ) (b : Boot K) (s : K)
    (hs : b.startDt = some s) (r : ℕ) (hr : diffRegime b.dt s = .ok r) (h1 : (b.dt.drop r).length = 1) (g c : List K) (hg : b.gradient = some g)
    (hc : b.intercept = some c) (hl : c.length = g.length) (h0 : 0 < g.length) (hdraw : ∀ n i, 0 < n → draw n i < n) (M : List (List (Option K)))
    (hM : b.covariance = some M) (hM1 : M.length = 1) (nPost : Option ℕ) (hP : nPost ≠ some 0) (nPred : ℕ) (hN : nPred ≠ 1) :
    posteriorPredictive rvs draw b nPost nPred = .error .valueError := by
  obtain ⟨k, hk, hk0⟩ : ∃ k, posteriorCount nPost b = .ok (k + 1) ∧ True := by
    cases nPost with
    | none => exact ⟨g.length - 1, by simp [posteriorCount, samplesOf, hg, bind, Except.bind]; omega, trivial⟩
    | some k =>
      have : k ≠ 0 := fun h => hP (by rw [h])
      exact ⟨k - 1, by simp [posteriorCount]; omega, trivial⟩
  have hrow : predictiveRows rvs b (b.dt.drop r) nPred 0 (draw g.length 0) = .error .valueError := by
    have hd := hdraw g.length 0 h0
    have e1 : pyGet g (draw g.length 0) = .ok g[draw g.length 0] := by simp [pyGet, List.getElem?_eq_getElem hd]
    have hd2 : draw g.length 0 < c.length := by rw [hl]; exact hd
    have e2 : pyGet c (draw g.length 0) = .ok c[draw g.length 0] := by simp [pyGet, List.getElem?_eq_getElem hd2]
    simp only [predictiveRows, samplesOf, hg, hc, bind, Except.bind, e1, e2, hM]
    rw [if_neg (by rw [List.length_map, hM1, h1]; simp), if_pos ⟨by rw [List.length_map, h1], hN⟩]
  have hz : ¬ g.length = 0 := by omega
  simp only [posteriorPredictive, hk, bind, Except.bind, startOf, hs, hr, samplesOf, hg, randintCheck, if_neg hz]
  rw [List.range_succ_eq_map, List.mapM_cons, hrow]
  rfl

/-- One interval fitted, two samples. -/
def exFittedOne : Boot ℚ := { exBoot with startDt := some 3, gradient := some [1, 2], intercept := some [0, 1], covariance := some [[some 1]] }

example : exFittedOne.startDt = some 3 ∧ (diffRegime exFittedOne.dt 3).toOption = some 2 ∧ (exFittedOne.dt.drop 2).length = 1 ∧ (∀ n i : ℕ, 0 < n → i % n < n) :=
  ⟨rfl, by decide +kernel, rfl, fun n i h => Nat.mod_lt i h⟩

/-! ### Arrhenius relationships -/

/-- **C142 (Arrhenius).** Bounds without a third entry are an IndexError; bounds given as a tuple whose last upper end is None are a TypeError
(Python cannot assign to a tuple), for every temperature; nothing is changed in either case. -/
theorem C142_bounds (relationship : Bounds K → List K → PyM Unit) (h : Heap K) (arg : BoundsArg K) (temperature : List K) :
    ((arg.ref.read h).length ≤ 2 → superInit relationship h arg temperature = (h, .error .indexError)) ∧
    ∀ b x, arg = .tuple b → b[2]? = some (x, none) → temperature ≠ [] → superInit relationship h arg temperature = (h, .error .typeError) := by
  constructor
  · intro hl
    have : (arg.ref.read h)[2]? = none := by simpa using hl
    unfold superInit fillT0
    rw [this]
  · rintro b x rfl hb ht
    obtain ⟨t, ts, rfl⟩ := List.exists_cons_of_ne_nil ht
    have : ((BoundsArg.tuple b).ref.read h)[2]? = some (x, none) := hb
    unfold superInit fillT0
    rw [this]
    rfl

example : ((BoundsArg.tuple [(0, some 1), (0, some 1), (0, none)] : BoundsArg ℚ).ref.read (fun _ => [])).length = 3 ∧
    ((BoundsArg.tuple [(0, some 1), (0, some 1)] : BoundsArg ℚ).ref.read (fun _ => [])).length ≤ 2 := by decide +kernel

/-- A column that the first row does not have. -/
theorem arrColumn_missing {chain : List (List ℝ)} {j : ℕ} (hne : chain ≠ []) (h : ∀ row ∈ chain, row.length ≤ j) :
    arrColumn chain j = .error .indexError := by
  obtain ⟨row, rest, rfl⟩ := List.exists_cons_of_ne_nil hne
  have : row[j]? = none := by simpa using h row (by simp)
  simp [arrColumn, this, bind, Except.bind]

theorem arrColumn_present {chain : List (List ℝ)} {j : ℕ} (h : ∀ row ∈ chain, j < row.length) : ∃ c, arrColumn chain j = .ok c := by
  obtain ⟨c, hc, -⟩ := mapM_runs (f := fun row : List ℝ => match row[j]? with
    | some v => (.ok v : PyM ℝ)
    | none => .error .indexError) (l := chain) (fun row hr => ⟨row[j]'(h row hr), by simp [List.getElem?_eq_getElem (h row hr)]⟩)
  exact ⟨c, hc⟩

/-- **C142 (Arrhenius, samples).** Samples of fewer parameters than the relationship has are an IndexError, for every temperature. -/
theorem C142_columns (chain : List (List ℝ)) (hne : chain ≠ []) (n : ℕ) (hn : ∀ row ∈ chain, row.length = n) (T : ℝ) (x : List ℝ) :
    (n < 2 → standardExtrapolate chain T = .error .indexError ∧ standardDistribution x chain = .error .indexError) ∧
    (n < 3 → superExtrapolate chain T = .error .indexError ∧ superDistribution x chain = .error .indexError) := by
  have hmiss : ∀ j, n ≤ j → arrColumn chain j = .error .indexError := fun j hj => arrColumn_missing hne fun row hr => by rw [hn row hr]; exact hj
  have hpre : ∀ j, j < n → ∃ c, arrColumn chain j = .ok c := fun j hj => arrColumn_present fun row hr => by rw [hn row hr]; exact hj
  have : n = 0 ∨ n = 1 ∨ n = 2 ∨ 3 ≤ n := by omega
  rcases this with rfl | rfl | rfl | h3
  · simp [standardExtrapolate, standardDistribution, superExtrapolate, superDistribution, hmiss 0 le_rfl, bind, Except.bind]
  · obtain ⟨c0, h0⟩ := hpre 0 (by omega)
    simp [standardExtrapolate, standardDistribution, superExtrapolate, superDistribution, h0, hmiss 1 le_rfl, bind, Except.bind]
  · obtain ⟨c0, h0⟩ := hpre 0 (by omega)
    obtain ⟨c1, h1⟩ := hpre 1 (by omega)
    simp [superExtrapolate, superDistribution, h0, h1, hmiss 2 le_rfl, bind, Except.bind]
  · exact ⟨fun h => by omega, fun h => by omega⟩

example : ([[1, 2], [3, 4]] : List (List ℝ)) ≠ [] ∧ (∀ row ∈ ([[1, 2], [3, 4]] : List (List ℝ)), row.length = 2) ∧ 2 < 3 := by simp

/-! ### Saving and loading -/

theorem dictOps_append_error {p k : Str} {v : Val K} {pre post : List (Str × Val K)} (hp : (dictOps p pre).2 = none) {e : PyErr}
    (hv : valOps p k v = ([], some e)) : dictOps p (pre ++ (k, v) :: post) = ((dictOps p pre).1, some e) := by
  induction pre with
  | nil => simp [dictOps, Ops.andThen, hv]
  | cons a pre ih =>
    obtain ⟨k', v'⟩ := a
    rw [dictOps] at hp ⊢
    simp only [List.cons_append]
    rw [dictOps]
    unfold Ops.andThen at hp ⊢
    cases hx : (valOps p k' v').2 with
    | some er => rw [hx] at hp; simp only at hp; rw [hx] at hp; cases hp
    | none =>
      rw [hx] at hp
      simp only at hp ⊢
      rw [ih hp]

/-- **C142 (`save`).** A value that is neither None, a list, a dictionary, an array, an int, a float, a str nor a bytes object — in
particular a numpy integer or a numpy bool — is a ValueError, and what comes before it has been written to the file. -/
theorem C142_save (pre post : List (Str × Val K)) (h : (writeDict pre).2 = .ok ()) (k : Str) (v : Val K)
    (hv : (∃ z, v = .npInt z) ∨ (∃ b, v = .npBool b) ∨ v = .other) (fs : FS K) (name : Str) (hn : fs (target name) = none) :
    save fs name (.ok (pre ++ (k, v) :: post)) = (setFile fs (target name) (.hdf (writeDict pre).1), .error .valueError) := by
  have hp := writeDict_ok h
  have hv' : valOps ['/'] k v = ([], some .valueError) := by
    rcases hv with ⟨z, rfl⟩ | ⟨z, rfl⟩ | rfl <;> rw [valOps]
  have hd := dictOps_append_error (post := post) hp hv'
  have hw : writeDict (pre ++ (k, v) :: post) = ((writeDict pre).1, .error .valueError) := by
    unfold writeDict at h ⊢
    rw [hd]
    simp only
    cases hh : hdfWriteAll [] (dictOps ['/'] pre).1 with
    | mk f o =>
      rw [hh] at h
      cases o with
      | some e => simp at h
      | none => rfl
  unfold save
  simp only [hn, Option.isSome_none, Bool.false_eq_true, ↓reduceIte, hw]

example : (writeDict [(k! "a", (.int 1 : Val ℚ))]).2 = .ok () ∧ (∃ z, (.npInt 7 : Val ℚ) = .npInt z) := ⟨by decide +kernel, 7, rfl⟩

/-- **C142 (`from_dict`).** A dictionary whose `euclidian_displacements` is None is a TypeError. -/
theorem C142_load {D : Type} (L : DistLib K D) (m : Val K) (b : PBoot K D) (v : Val K) (h1 : item m (k! "max_obs") = .ok v)
    (h2 : item m (k! "euclidian_displacements") = .ok .null) : restore L m b = .error .typeError := by
  unfold restore
  simp only [h1, h2, bind, Except.bind, distList]

example : item (.dict [(k! "max_obs", .int 3), (k! "euclidian_displacements", .null)] : Val ℚ) (k! "max_obs") = .ok (.int 3) ∧
    item (.dict [(k! "max_obs", .int 3), (k! "euclidian_displacements", .null)] : Val ℚ) (k! "euclidian_displacements") = .ok .null := by
  constructor <;> rfl

end Kinisi
