import Verif.Props.EndToEnd

/-!
# C78, C80: from a trajectory to the reported MSD, MSTD and MSCD; MDAnalysis
-/

set_option linter.unusedSectionVars false
set_option linter.unusedVariables false

namespace Kinisi
open Spec
variable {K : Type} [Field K] [LinearOrder K] [IsStrictOrderedRing K] [FloorRing K] {G : Type}

/-- In the first half of an ascending list of intervals each has at least two windows. -/
theorem half_windows {L : M3 K} {u : ℕ → ℕ → V3 K} {fw atoms : List ℕ} {F : ℕ} {kept : List ℕ} {disp : List (Arr3 K)}
    (hs : kept.Pairwise (· < ·)) (hr : ∀ τ ∈ kept, τ ≤ F) (hf : List.Forall₂ (TrueWindows L u fw atoms F) kept disp) :
    ∀ a ∈ disp.take (disp.length / 2), 2 ≤ a.n1 := by
  intro a ha
  obtain ⟨i, hi, rfl⟩ := List.mem_iff_getElem.mp ha
  rw [List.length_take] at hi
  have hl := hf.length_eq
  have h1 : i < kept.length - 1 := by omega
  have hw := (List.forall₂_iff_get.mp hf).2 i (by omega) (by omega)
  have hlt : kept[i] < kept[kept.length - 1] := List.pairwise_iff_getElem.mp hs i (kept.length - 1) (by omega) (by omega) h1
  have hle := hr _ (List.getElem_mem (l := kept) (n := kept.length - 1) (by omega))
  rw [List.getElem_take]
  have e := hw.2.1
  simp only [List.get_eq_getElem] at e
  rw [e]
  omega

theorem map_of_forall₂ {α β γ : Type} {R : α → β → Prop} {f : α → γ} {g : β → γ} (h : ∀ a b, R a b → f a = g b) {l : List α}
    {l' : List β} (hf : List.Forall₂ R l l') : l.map f = l'.map g := by
  induction hf with
  | nil => rfl
  | cons hab _ ih => rw [List.map_cons, List.map_cons, h _ _ hab, ih]

/-- The first entries of the time axis belong to the first of the kept intervals. -/
theorem times_of_kept {N F : ℕ} {taus : List ℕ} (hs : taus.Pairwise (· < ·)) (h1 : ∀ τ ∈ taus, 1 ≤ τ ∧ τ ≤ F) {t : ℕ → K} {c : ℕ}
    (hc : c ≤ (resolved N F taus).length) : (taus.map t).take c = ((resolved N F taus).take c).map t := by
  obtain ⟨k, hk⟩ := kept_prefix (N := N) (hs.imp fun h => h.le) h1
  rw [hk] at hc ⊢
  rw [List.length_take] at hc
  rw [← List.map_take, List.take_take, min_eq_left (by omega)]

/-- The MSTD of a parsed trajectory. -/
theorem mstd_of_parsed {L : M3 K} {V : K} {u : ℕ → ℕ → V3 K} {fw atoms : List ℕ} {F : ℕ} {nSteps : ℤ} {t : ℕ → K} {taus : List ℕ}
    {B : Base K} (hB : TrueBase L V u fw atoms F nSteps t taus B)
    {sq : K → K} {o : Oracle K G} {U : UncParams K} (hblock : U.opt.block = false) (hsub : U.sub = 1)
    {g g' : G} {b : Boot K}
    (h : mstdBootstrap sq o U.opt g B.deltaT B.disp3d B.nO U.sub U.dimension = .ok (b, g')) :
    b.n = ((resolved atoms.length F taus).take ((resolved atoms.length F taus).length / 2)).map
        (reportedTotal (axesOf U.dimension) L u fw atoms (fun _ => 1) F) ∧
      b.dt = ((resolved atoms.length F taus).take ((resolved atoms.length F taus).length / 2)).map t := by
  have hks : (resolved atoms.length F taus).Pairwise (· < ·) := hB.sorted.sublist (List.filter_sublist)
  have hkr : ∀ τ ∈ resolved atoms.length F taus, τ ≤ F := fun τ hτ => (hB.range τ (List.mem_filter.mp hτ).1).2
  have hl := hB.windows.length_eq
  obtain ⟨ds, dts, e1, e2, e3, e4⟩ := C29_mstd sq o U.opt hblock g g' B.deltaT B.disp3d B.nO U.sub U.dimension b (by
    intro ds hd
    rw [hsub, pyStride_one] at hd
    obtain rfl := Except.ok.inj hd
    exact half_windows hks hkr hB.windows) h
  rw [hsub, pyStride_one] at e1 e2
  obtain rfl := Except.ok.inj e1
  obtain rfl := Except.ok.inj e2
  constructor
  · rw [e3, ← hl]
    rw [List.map_take, List.map_take]
    rw [map_of_forall₂ (fun τ a h => (mstd_true h _).symm) hB.windows]
  · rw [e4, ← hl, hB.deltaT]
    exact times_of_kept hB.sorted hB.range (by omega)

/-- The MSCD of a parsed trajectory. -/
theorem mscd_of_parsed {L : M3 K} {V : K} {u : ℕ → ℕ → V3 K} {fw atoms : List ℕ} {F : ℕ} {nSteps : ℤ} {t : ℕ → K} {taus : List ℕ}
    {B : Base K} (hB : TrueBase L V u fw atoms F nSteps t taus B) {charge : Charge K}
    (hq : ∀ l, charge = .array l → l.length = atoms.length)
    {sq : K → K} {o : Oracle K G} {U : UncParams K} (hblock : U.opt.block = false) (hsub : U.sub = 1)
    {g g' : G} {b : Boot K}
    (h : mscdBootstrap sq o U.opt g B.deltaT B.disp3d charge B.nO U.sub U.dimension = .ok (b, g')) :
    b.n = ((resolved atoms.length F taus).take ((resolved atoms.length F taus).length / 2)).map
        (reportedTotal Finset.univ L u fw atoms charge.of F) ∧
      b.dt = ((resolved atoms.length F taus).take ((resolved atoms.length F taus).length / 2)).map t := by
  have hks : (resolved atoms.length F taus).Pairwise (· < ·) := hB.sorted.sublist (List.filter_sublist)
  have hkr : ∀ τ ∈ resolved atoms.length F taus, τ ≤ F := fun τ hτ => (hB.range τ (List.mem_filter.mp hτ).1).2
  have hl := hB.windows.length_eq
  have hN : ∀ a ∈ B.disp3d, a.n0 = atoms.length := by
    intro a ha
    obtain ⟨i, hi, rfl⟩ := List.mem_iff_getElem.mp ha
    exact ((List.forall₂_iff_get.mp hB.windows).2 i (by omega) hi).1
  obtain ⟨ds, dts, e1, e2, e3, e4⟩ := C31_mscd_ignores_dimension sq o U.opt hblock g g' B.deltaT B.disp3d charge B.nO U.sub U.dimension b
    atoms.length (by
      intro ds hd
      rw [hsub, pyStride_one] at hd
      obtain rfl := Except.ok.inj hd
      exact half_windows hks hkr hB.windows) hN hq h
  rw [hsub, pyStride_one] at e1 e2
  obtain rfl := Except.ok.inj e1
  obtain rfl := Except.ok.inj e2
  constructor
  · rw [e3, ← hl]
    rw [List.map_take, List.map_take]
    rw [map_of_forall₂ (fun τ a h => (mscd_true h _ _).symm) hB.windows]
  · rw [e4, ← hl, hB.deltaT]
    exact times_of_kept hB.sorted hB.range (by omega)

theorem jump_inv {sq : K → K} {o : Oracle K G} {g g' : G} {U : UncParams K} {base : PyM (Base K)} {Z : Analyzer K}
    (h : jumpAnalyzer sq o g U base = .ok (Z, g')) : ∃ B : Base K, base = .ok B ∧ Z.toBase = B ∧
      mstdBootstrap sq o U.opt g B.deltaT B.disp3d B.nO U.sub U.dimension = .ok (Z.diff, g') := by
  unfold jumpAnalyzer at h
  cases hb : base with
  | error e => rw [hb] at h; cases h
  | ok B =>
    rw [hb] at h
    simp only [bind, Except.bind] at h
    cases hm : mstdBootstrap sq o U.opt g B.deltaT B.disp3d B.nO U.sub U.dimension with
    | error e => rw [hm] at h; cases h
    | ok r =>
      obtain ⟨b, g1⟩ := r
      rw [hm] at h
      obtain ⟨rfl, rfl⟩ := Prod.mk.inj (Except.ok.inj h)
      exact ⟨B, rfl, rfl, hm⟩

theorem conductivity_inv {sq : K → K} {o : Oracle K G} {g g' : G} {U : UncParams K} {charge : Charge K} {base : PyM (Base K)}
    {Z : Analyzer K} (h : conductivityAnalyzer sq o g U charge base = .ok (Z, g')) : ∃ B : Base K, base = .ok B ∧ Z.toBase = B ∧
      mscdBootstrap sq o U.opt g B.deltaT B.disp3d charge B.nO U.sub U.dimension = .ok (Z.diff, g') := by
  unfold conductivityAnalyzer at h
  cases hb : base with
  | error e => rw [hb] at h; cases h
  | ok B =>
    rw [hb] at h
    simp only [bind, Except.bind] at h
    cases hm : mscdBootstrap sq o U.opt g B.deltaT B.disp3d charge B.nO U.sub U.dimension with
    | error e => rw [hm] at h; cases h
    | ok r =>
      obtain ⟨b, g1⟩ := r
      rw [hm] at h
      obtain ⟨rfl, rfl⟩ := Prod.mk.inj (Except.ok.inj h)
      exact ⟨B, rfl, rfl, hm⟩

/-! ## MDAnalysis -/

/-- The same trajectory as an MDAnalysis universe: Cartesian positions in the fixed box `L`. -/
def wrappedMda (F : ℕ) (types : List String) (L : M3 K) (volume : K) (u : ℕ → ℕ → V3 K) (m : ℕ → ℕ → Fin 3 → ℤ) : Universe K :=
  (types, (List.range F).map fun j =>
    ⟨(List.range types.length).map fun i => cart L fun k => u i j k + (m i j k : K), L, volume⟩)

theorem universe_wrapped {F : ℕ} {types : List String} {L : M3 K} (hL : det3 L ≠ 0) {V : K} {u : ℕ → ℕ → V3 K}
    {m : ℕ → ℕ → Fin 3 → ℤ} : (wrappedMda F types L V u m).2.mapM (mdaFrame types 1) = .ok (wrapped F types L V u m) := by
  unfold wrappedMda wrapped
  rw [mapM_except_ok (g := fun f : MdaFrame K => ⟨types, f.pos.map fun x => vm x (invFun f.latt), f.latt, f.volume⟩)]
  · rw [List.map_map]
    congr 1
    apply List.map_congr_left
    intro j _
    simp only [Function.comp, Frame.mk.injEq, true_and, and_true]
    rw [List.map_map]
    apply List.map_congr_left
    intro i _
    simp only [Function.comp]
    exact vm_inv_left hL _
  · intro f hf
    obtain ⟨j, -, rfl⟩ := List.mem_map.mp hf
    unfold mdaFrame
    simp only [pyStride_one, bind, Except.bind, inv3_ok hL]

theorem singular_fails {F : ℕ} (hF : 2 ≤ F) {types : List String} {L : M3 K} (hL : det3 L = 0) {V : K} {u : ℕ → ℕ → V3 K}
    {m : ℕ → ℕ → Fin 3 → ℤ} : (wrappedMda F types L V u m).2.mapM (mdaFrame types 1) = .error .linAlgError := by
  have he : ∀ f ∈ (wrappedMda F types L V u m).2, mdaFrame types 1 f = .error .linAlgError := by
    intro f hf
    unfold wrappedMda at hf
    obtain ⟨j, -, rfl⟩ := List.mem_map.mp hf
    unfold mdaFrame
    simp only [pyStride_one, bind, Except.bind, inv3_err hL]
  have h0 : 0 < (wrappedMda F types L V u m).2.length := by simp [wrappedMda]; omega
  exact mapM_except_err _ _ _ _ (List.getElem_mem h0) (he _ (List.getElem_mem h0)) fun b hb => .inl (he b hb)

/-- The object that `_from_universe` makes of such a trajectory. -/
theorem universe_base {E : Num K} {P : Params K} {S : Select K} {sy : List String} {atoms fw : List ℕ} (hS : Picks S sy atoms fw) (hP : DefaultGrid E P) {F : ℕ} (hF : 2 ≤ F) {L : M3 K} {V : K}
    {u : ℕ → ℕ → V3 K} {m : ℕ → ℕ → Fin 3 → ℤ}
    (hstep : ∀ i < sy.length, ∀ j, j + 1 < F → HalfCell fun k => u i (j + 1) k - u i j k) {B : Base K}
    (hB : fromUniverse E P S 1 1 none (.one (wrappedMda F sy L V u m)) = .ok B) :
    ∃ taus : List ℕ, initTimeIntervals id E.geo F P.timeStep (P.stepSkip.mul E.fl (.int 1)) none none P.nSteps "linear" =
        .ok (taus.map fun τ : ℕ => (τ : ℤ)) ∧
      TrueBase L V u fw atoms F P.nSteps (fun τ : ℕ => (τ : K) * P.stepSkip.val * P.timeStep.val) taus B := by
  obtain ⟨f0, rest, hw⟩ := wrapped_cons hF sy L V u m
  unfold fromUniverse analyzerFrom at hB
  simp only [Traj.asOne, bind, Except.bind] at hB
  cases hp : mdaParser E P S 1 1 (wrappedMda F sy L V u m).1 (wrappedMda F sy L V u m).2 with
  | error e => rw [hp] at hB; cases hB
  | ok r =>
  rw [hp] at hB
  obtain rfl := Except.ok.inj hB
  have h18 := C18_mda E P S hP.1 1 1 _ _ r hp
  unfold mdaParser at hp
  have h1 : (wrappedMda F sy L V u m).1 = sy := rfl
  simp only [ne_eq, not_true_eq_false, decide_false, Bool.false_and, Bool.false_eq_true, ↓reduceIte, pyStride_one, bind, Except.bind,
    h1] at hp
  by_cases hd : det3 L = 0
  · rw [singular_fails hF hd] at hp; cases hp
  rw [universe_wrapped hd, hw] at hp
  simp only [structureCoordsLatt, List.map_cons] at hp
  have hP' : DefaultGrid E { P with stepSkip := P.stepSkip.mul E.fl (.int 1) } := by
    obtain ⟨a, b, c⟩ := hP
    refine ⟨a, ?_, c⟩
    dsimp only
    rw [a, PyNum.val_mul_id]
    simpa [PyNum.val] using b
  obtain ⟨taus, t0, t1, t2⟩ := build_wrapped hS hP' hF hstep hw hp
  rw [t1, List.map_map] at h18
  refine ⟨taus, t0, t2.sorted, t2.range, t2.full, t2.volume, ?_, t2.windows⟩
  unfold baseOf
  rw [h18]
  apply List.map_congr_left
  intro τ _
  simp

/-- The object comes from one of the three file formats; the time axis of pymatgen structures is divided by 1000. -/
def ReadFrom (E : Num K) (P : Params K) (S : Select K) (F : ℕ) (sy : List String) (L : M3 K) (V : K) (u : ℕ → ℕ → V3 K)
    (m : ℕ → ℕ → Fin 3 → ℤ) (base : PyM (Base K)) (unit : K) : Prop :=
  base = fromAse E P S 1 none (.one (wrapped F sy L V u m)) ∧ unit = 1 ∨
    base = fromPymatgen E P S 1 none (.one (wrapped F sy L V u m)) ∧ unit = 1000 ∨
    base = fromUniverse E P S 1 1 none (.one (wrappedMda F sy L V u m)) ∧ unit = 1

/-- In exact arithmetic the time intervals depend on `step_skip` and `time_step` only through their product. -/
theorem intervals_product {geo : ℤ → ℤ → ℕ → ℕ → K} {T : ℕ} {ts ss ts' ss' : PyNum K} (h : ss.val * ts.val = ss'.val * ts'.val)
    {mn mx : Option K} {n : ℤ} {sp : String} :
    initTimeIntervals id geo T ts ss mn mx n sp = initTimeIntervals id geo T ts' ss' mn mx n sp := by
  have h1 : (ss.mul id ts).val = (ss'.mul id ts').val := by rw [PyNum.val_mul_id, PyNum.val_mul_id, h]
  have h2 : ∀ x, stepsOf id ts ss x = stepsOf id ts' ss' x := by intro x; unfold stepsOf; simp only [h1]
  have h3 : maxDtOf id T ts ss mx = maxDtOf id T ts' ss' mx := by
    cases mx with
    | none => simp only [maxDtOf, PyNum.val_mul_id, h]
    | some x => rfl
  have h4 : minDtOf id ts ss mn = minDtOf id ts' ss' mn := by
    cases mn with
    | none => simp only [minDtOf, PyNum.val_mul_id, h]
    | some x => rfl
  unfold initTimeIntervals getTimeIntervals
  simp only [h2, h3, h4]

theorem read_base {E : Num K} {P : Params K} {S : Select K} {sy : List String} {atoms fw : List ℕ} (hS : Picks S sy atoms fw)
    (hP : DefaultGrid E P) {F : ℕ} (hF : 2 ≤ F) {L : M3 K} {V : K} {u : ℕ → ℕ → V3 K} {m : ℕ → ℕ → Fin 3 → ℤ}
    (hstep : ∀ i < sy.length, ∀ j, j + 1 < F → HalfCell fun k => u i (j + 1) k - u i j k) {base : PyM (Base K)} {unit : K}
    (hbase : ReadFrom E P S F sy L V u m base unit) {B : Base K} (hB : base = .ok B) :
    ∃ taus : List ℕ, initTimeIntervals id E.geo F P.timeStep P.stepSkip none none P.nSteps "linear" =
        .ok (taus.map fun τ : ℕ => (τ : ℤ)) ∧
      TrueBase L V u fw atoms F P.nSteps (fun τ : ℕ => (τ : K) * P.stepSkip.val * P.timeStep.val / unit) taus B := by
  have hi : initTimeIntervals id E.geo F P.timeStep (P.stepSkip.mul E.fl (.int 1)) none none P.nSteps "linear" =
      initTimeIntervals id E.geo F P.timeStep P.stepSkip none none P.nSteps "linear" :=
    intervals_product (by rw [hP.1, PyNum.val_mul_id]; simp [PyNum.val])
  rcases hbase with ⟨rfl, rfl⟩ | ⟨rfl, rfl⟩ | ⟨rfl, rfl⟩
  · simp only [div_one]
    exact ase_base hS hP hF hstep hB
  · rw [← hi]
    exact pymatgen_base hS hP hF hstep hB
  · simp only [div_one]
    rw [← hi]
    exact universe_base hS hP hF hstep hB

/-- **C78.** An MDAnalysis universe with Cartesian positions in a fixed box, moving by less than half a box per frame, wrapped in any
way: the reported MSD is the average `reportedMsd` of squared true displacements, as for the other file formats, and
`delta_t = τ · step_skip · time_step`. -/
theorem C78_mda (E : Num K) (P : Params K) (S : Select K) (sy : List String) (atoms fw : List ℕ) (hS : Picks S sy atoms fw)
    (hP : DefaultGrid E P) (F : ℕ) (hF : 2 ≤ F) (L : M3 K) (V : K) (u : ℕ → ℕ → V3 K) (m : ℕ → ℕ → Fin 3 → ℤ)
    (hstep : ∀ i < sy.length, ∀ j, j + 1 < F → HalfCell fun k => u i (j + 1) k - u i j k)
    (sq : K → K) (o : Oracle K G) (U : UncParams K) (hblock : U.opt.block = false) (hsub : U.sub = 1) (g g' : G) (Z : Analyzer K)
    (h : diffusionAnalyzer sq o g U (fromUniverse E P S 1 1 none (.one (wrappedMda F sy L V u m))) = .ok (Z, g')) :
    ∃ taus : List ℕ, taus.Pairwise (· < ·) ∧ (∀ τ ∈ taus, 1 ≤ τ ∧ τ ≤ F) ∧
      ((F : ℤ) ≤ P.nSteps → taus = (List.range F).map fun i => i + 1) ∧ Z.volume = some V ∧
      Z.diff.n = (resolved atoms.length F taus).map
        (reportedMsd (axesOf U.dimension) L u fw atoms F) ∧
      Z.diff.dt = (resolved atoms.length F taus).map fun τ : ℕ => (τ : K) * P.stepSkip.val * P.timeStep.val := by
  obtain ⟨B, hB, rfl, hm⟩ := diffusion_inv h
  obtain ⟨taus, -, ht⟩ := universe_base hS hP hF hstep hB
  exact ⟨taus, ht.sorted, ht.range, ht.full, ht.volume, msd_of_parsed ht hblock hsub hm⟩

/-- **C78, formats agree.** The same motion read from ASE atoms or from an MDAnalysis universe gives the same MSD on the same time
axis. -/
theorem C78_ase_mda_agree (E : Num K) (P : Params K) (S : Select K) (sy : List String) (atoms fw : List ℕ) (hS : Picks S sy atoms fw) (hP : DefaultGrid E P) (F : ℕ) (hF : 2 ≤ F) (L : M3 K) (V : K)
    (u : ℕ → ℕ → V3 K) (m m' : ℕ → ℕ → Fin 3 → ℤ)
    (hstep : ∀ i < sy.length, ∀ j, j + 1 < F → HalfCell fun k => u i (j + 1) k - u i j k)
    (sq : K → K) (o : Oracle K G) (U : UncParams K) (hblock : U.opt.block = false) (hsub : U.sub = 1) (g g' g₁ g₁' : G)
    (Z Z₁ : Analyzer K)
    (h : diffusionAnalyzer sq o g U (fromUniverse E P S 1 1 none (.one (wrappedMda F sy L V u m))) = .ok (Z, g'))
    (h₁ : diffusionAnalyzer sq o g₁ U (fromAse E P S 1 none (.one (wrapped F sy L V u m'))) = .ok (Z₁, g₁')) :
    Z.diff.n = Z₁.diff.n ∧ Z.diff.dt = Z₁.diff.dt ∧ Z.volume = Z₁.volume := by
  obtain ⟨B, hB, rfl, hm⟩ := diffusion_inv h
  obtain ⟨B', hB', rfl, hm'⟩ := diffusion_inv h₁
  obtain ⟨t, a0, ht⟩ := read_base hS hP hF hstep (.inr (.inr ⟨rfl, rfl⟩)) hB
  obtain ⟨t', b0, ht'⟩ := read_base hS hP hF hstep (.inl ⟨rfl, rfl⟩) hB'
  obtain rfl := map_cast_inj (a0.symm.trans b0)
  obtain ⟨a1, a2⟩ := msd_of_parsed ht hblock hsub hm
  obtain ⟨b1, b2⟩ := msd_of_parsed ht' hblock hsub hm'
  exact ⟨a1.trans b1.symm, a2.trans b2.symm, ht.volume.trans ht'.volume.symm⟩

example : ((diffusionAnalyzer id (exOracle ℚ) () exUnc (fromUniverse exNum exParams exSelect 1 1 none
      (.one (wrappedMda 5 ["Li", "O", "Li"] exBox 1000 exTrue exImages)))).toOption.map fun z => (z.1.diff.n, z.1.diff.dt)) =
    some ([84 / 125, 9 / 4, 322 / 75, 337 / 50, 256 / 25], [6, 12, 18, 24, 30]) := by
  decide +kernel

/-- `C78_mda` for this trajectory. -/
example : ∃ Z, diffusionAnalyzer id (exOracle ℚ) () exUnc (fromUniverse exNum exParams exSelect 1 1 none
      (.one (wrappedMda 5 ["Li", "O", "Li"] exBox 1000 exTrue exImages))) = .ok (Z, ()) ∧
      Z.diff.n = (resolved 2 5 [1, 2, 3, 4, 5]).map (reportedMsd Finset.univ exBox exTrue [1] [0, 2] 5) := by
  obtain ⟨⟨Z, g⟩, h⟩ := ok_of_isSome (x := diffusionAnalyzer id (exOracle ℚ) () exUnc (fromUniverse exNum exParams exSelect 1 1 none
    (.one (wrappedMda 5 ["Li", "O", "Li"] exBox 1000 exTrue exImages)))) (by decide +kernel)
  obtain ⟨taus, -, -, ht, -, hn, -⟩ := C78_mda exNum exParams exSelect _ _ _ exPicks exGrid 5 (by decide) exBox 1000 exTrue exImages
    exTrue_half id (exOracle ℚ) exUnc rfl rfl () () Z h
  rw [ht (by decide +kernel), show axesOf exUnc.dimension = Finset.univ by decide +kernel] at hn
  exact ⟨Z, h, hn⟩

/-! ## Total displacements -/

/-- **C80, MSTD.** For the same trajectories, read from any of the three formats, the jump-diffusion analyzer reports, for the first
half of the intervals, the average of the squared sum over the chosen atoms of the true displacements. -/
theorem C80_mstd (E : Num K) (P : Params K) (S : Select K) (sy : List String) (atoms fw : List ℕ) (hS : Picks S sy atoms fw)
    (hP : DefaultGrid E P) (F : ℕ) (hF : 2 ≤ F) (L : M3 K) (V : K) (u : ℕ → ℕ → V3 K) (m : ℕ → ℕ → Fin 3 → ℤ)
    (hstep : ∀ i < sy.length, ∀ j, j + 1 < F → HalfCell fun k => u i (j + 1) k - u i j k)
    (sq : K → K) (o : Oracle K G) (U : UncParams K) (hblock : U.opt.block = false) (hsub : U.sub = 1) (g g' : G) (Z : Analyzer K)
    (base : PyM (Base K)) (unit : K)
    (hbase : ReadFrom E P S F sy L V u m base unit)
    (h : jumpAnalyzer sq o g U base = .ok (Z, g')) :
    ∃ taus half : List ℕ, taus.Pairwise (· < ·) ∧ (∀ τ ∈ taus, 1 ≤ τ ∧ τ ≤ F) ∧
      ((F : ℤ) ≤ P.nSteps → taus = (List.range F).map fun i => i + 1) ∧ Z.volume = some V ∧
      half = (resolved atoms.length F taus).take ((resolved atoms.length F taus).length / 2) ∧
      Z.diff.n = half.map (reportedTotal (axesOf U.dimension) L u fw atoms (fun _ => 1) F) ∧
      Z.diff.dt = half.map fun τ : ℕ => (τ : K) * P.stepSkip.val * P.timeStep.val / unit := by
  obtain ⟨B, hB, rfl, hm⟩ := jump_inv h
  obtain ⟨taus, -, ht⟩ := read_base hS hP hF hstep hbase hB
  exact ⟨taus, _, ht.sorted, ht.range, ht.full, ht.volume, rfl, mstd_of_parsed ht hblock hsub hm⟩

/-- **C80, MSCD.** The same for the conductivity analyzer, with the charges as weights, along all three axes whatever `dimension`
says. -/
theorem C80_mscd (E : Num K) (P : Params K) (S : Select K) (sy : List String) (atoms fw : List ℕ) (hS : Picks S sy atoms fw)
    (hP : DefaultGrid E P) (F : ℕ) (hF : 2 ≤ F) (L : M3 K) (V : K) (u : ℕ → ℕ → V3 K) (m : ℕ → ℕ → Fin 3 → ℤ)
    (hstep : ∀ i < sy.length, ∀ j, j + 1 < F → HalfCell fun k => u i (j + 1) k - u i j k)
    (sq : K → K) (o : Oracle K G) (U : UncParams K) (hblock : U.opt.block = false) (hsub : U.sub = 1) (g g' : G) (Z : Analyzer K)
    (base : PyM (Base K)) (unit : K)
    (hbase : ReadFrom E P S F sy L V u m base unit)
    (charge : Charge K) (hq : ∀ l, charge = .array l → l.length = atoms.length)
    (h : conductivityAnalyzer sq o g U charge base = .ok (Z, g')) :
    ∃ taus half : List ℕ, taus.Pairwise (· < ·) ∧ (∀ τ ∈ taus, 1 ≤ τ ∧ τ ≤ F) ∧
      ((F : ℤ) ≤ P.nSteps → taus = (List.range F).map fun i => i + 1) ∧ Z.volume = some V ∧
      half = (resolved atoms.length F taus).take ((resolved atoms.length F taus).length / 2) ∧
      Z.diff.n = half.map (reportedTotal Finset.univ L u fw atoms charge.of F) ∧
      Z.diff.dt = half.map fun τ : ℕ => (τ : K) * P.stepSkip.val * P.timeStep.val / unit := by
  obtain ⟨B, hB, rfl, hm⟩ := conductivity_inv h
  obtain ⟨taus, -, ht⟩ := read_base hS hP hF hstep hbase hB
  exact ⟨taus, _, ht.sorted, ht.range, ht.full, ht.volume, rfl, mscd_of_parsed ht hq hblock hsub hm⟩

example : ((jumpAnalyzer id (exOracle ℚ) () exUnc (fromUniverse exNum exParams exSelect 1 1 none
      (.one (wrappedMda 5 ["Li", "O", "O"] exBox 1000 exTrue exImages)))).toOption.map fun z => (z.1.diff.n, z.1.diff.dt)) =
    some ([189 / 125], [6]) := by decide +kernel

example : ((conductivityAnalyzer id (exOracle ℚ) () exUnc (.array [1, -1]) (fromPymatgen exNum exParams exSelect 1 none
      (.one (wrapped 5 ["Li", "O", "Li"] exBox 1000 exTrue exImages)))).toOption.map fun z => (z.1.diff.n, z.1.diff.dt)) =
    some ([336 / 125, 9], [3 / 500, 3 / 250]) := by decide +kernel

example : ∀ l, (Charge.array [1, -1] : Charge ℚ) = .array l → l.length = (chosen ["Li", "O", "Li"] ["Li"]).length := by
  intro l h
  obtain rfl := Charge.array.inj h
  decide

/-- `C80_mstd` and `C80_mscd` for two ions of opposite charge: the total displacement vanishes, the dipole does not. -/
example : ∃ Z Z', jumpAnalyzer id (exOracle ℚ) () exUnc (fromPymatgen exNum exParams exSelect 1 none
      (.one (wrapped 5 ["Li", "O", "Li"] exBox 1000 exTrue exImages))) = .ok (Z, ()) ∧
    conductivityAnalyzer id (exOracle ℚ) () exUnc (.array [1, -1]) (fromPymatgen exNum exParams exSelect 1 none
      (.one (wrapped 5 ["Li", "O", "Li"] exBox 1000 exTrue exImages))) = .ok (Z', ()) ∧
    Z.diff.n = ((resolved 2 5 [1, 2, 3, 4, 5]).take 2).map (reportedTotal Finset.univ exBox exTrue [1] [0, 2] (fun _ => 1) 5) ∧
    Z'.diff.n = ((resolved 2 5 [1, 2, 3, 4, 5]).take 2).map
      (reportedTotal Finset.univ exBox exTrue [1] [0, 2] (Charge.of (.array [1, -1])) 5) := by
  obtain ⟨⟨Z, g⟩, h⟩ := ok_of_isSome (x := jumpAnalyzer id (exOracle ℚ) () exUnc (fromPymatgen exNum exParams exSelect 1 none
    (.one (wrapped 5 ["Li", "O", "Li"] exBox 1000 exTrue exImages)))) (by decide +kernel)
  obtain ⟨⟨Z', g'⟩, h'⟩ := ok_of_isSome (x := conductivityAnalyzer id (exOracle ℚ) () exUnc (.array [1, -1]) (fromPymatgen exNum exParams
    exSelect 1 none (.one (wrapped 5 ["Li", "O", "Li"] exBox 1000 exTrue exImages)))) (by decide +kernel)
  have hr : (resolved 2 5 [1, 2, 3, 4, 5]).length / 2 = 2 := by decide +kernel
  obtain ⟨taus, half, -, -, ht, -, hh, hn, -⟩ := C80_mstd exNum exParams exSelect _ _ _ exPicks exGrid 5 (by decide) exBox 1000 exTrue exImages
    exTrue_half id (exOracle ℚ) exUnc rfl rfl () () Z _ 1000 (.inr (.inl ⟨rfl, rfl⟩)) h
  rw [hh, ht (by decide +kernel), show axesOf exUnc.dimension = Finset.univ by decide +kernel] at hn
  obtain ⟨taus', half', -, -, ht', -, hh', hn', -⟩ := C80_mscd exNum exParams exSelect _ _ _ exPicks exGrid 5 (by decide) exBox 1000 exTrue
    exImages exTrue_half id (exOracle ℚ) exUnc rfl rfl () () Z' _ 1000 (.inr (.inl ⟨rfl, rfl⟩)) (.array [1, -1])
    (fun l e => (Charge.array.inj e) ▸ rfl) h'
  rw [hh', ht' (by decide +kernel)] at hn'
  exact ⟨Z, Z', h, h', hn, hn'⟩

end Kinisi
