import Verif.Spec.Paths
import Verif.Props.EndToEndTotal
import Verif.Props.Select

/-!
# C101, C102: changing cells and molecules, from the trajectory to the reported curves
-/

set_option linter.unusedSectionVars false
set_option linter.unusedVariables false

namespace Kinisi
open Spec
variable {K : Type} [Field K] [LinearOrder K] [IsStrictOrderedRing K] [FloorRing K] {G : Type}

/-- The same frames reach the analyzer through one of the three file formats; `uni` is the MDAnalysis form. -/
def ReadFrames (E : Num K) (P : Params K) (S : Select K) (fr : List (Frame K)) (uni : Universe K) (base : PyM (Base K)) (unit : K) : Prop :=
  base = fromAse E P S 1 none (.one fr) ∧ unit = 1 ∨ base = fromPymatgen E P S 1 none (.one fr) ∧ unit = 1000 ∨
    base = fromUniverse E P S 1 1 none (.one uni) ∧ unit = 1

/-- After the selection, the unwrapped path of the frames is that of `u` in the cell `L`, for the particles `atoms` and the framework `fw`. -/
def Follows (E : Num K) (S : Select K) (f0 : Frame K) (rest : List (Frame K)) (L : M3 K) (u : ℕ → ℕ → V3 K) (fw atoms : List ℕ) : Prop :=
  ∀ coords sel, selectAtoms E.trig f0.symbols (f0.frac :: rest.map Frame.frac) S = .ok (coords, sel) →
    sel.indices = atoms.map (fun k : ℕ => (k : ℤ)) ∧ sel.drift.vals = fw.map (fun k : ℕ => (k : ℤ)) ∧
    ∀ n p, (∀ c ∈ coords, c.length = n) → coords.length = rest.length + 1 → (∀ C ∈ f0.latt :: rest.map Frame.latt, NonSingular C) →
      IsPath (rest.length + 1) n (fun j => (f0.latt :: rest.map Frame.latt).getD j 0) (fun j i => (coords.getD j []).getD i 0) p →
      (∀ a ∈ fw, a < n) ∧ (∀ a ∈ atoms, a < n) ∧ ∀ i < n, ∀ j < rest.length + 1, ∀ l, p i j l = cart L (u i j) l - cart L (u i 0) l

theorem follows_any {E : Num K} {P : Params K} {S : Select K} {atoms fw : List ℕ} (hfl : E.fl = id) (hsm : P.sampling = "multi-origin") {F : ℕ} {L : M3 K}
    {u : ℕ → ℕ → V3 K} {f0 : Frame K} {rest : List (Frame K)} (hlen : rest.length + 1 = F) (hf : Follows E S f0 rest L u fw atoms)
    (hone : ∀ l, initTimeIntervals id E.geo F P.timeStep P.stepSkip P.minDt P.maxDt P.nSteps P.spacing = .ok l → ∀ τ ∈ l, 1 ≤ τ) {r : Parsed K}
    (h : buildParser E P S f0 (f0.frac :: f0.frac :: rest.map Frame.frac) (f0.latt :: f0.latt :: rest.map Frame.latt) = .ok r) :
    ∃ taus : List ℕ, initTimeIntervals id E.geo F P.timeStep P.stepSkip P.minDt P.maxDt P.nSteps P.spacing =
        .ok (taus.map fun τ : ℕ => (τ : ℤ)) ∧ r.intervals = taus.map (fun τ : ℕ => (τ : ℤ)) ∧
      PathBase L f0.volume u fw atoms F (fun τ : ℕ => (τ : K) * P.stepSkip.val * P.timeStep.val) taus
        (baseOf r) := by
  subst hlen
  obtain ⟨coords', sel', w, disp, r0, hsel', -⟩ := buildParser_inv h
  rw [selectAtoms_dup] at hsel'
  cases hsel : selectAtoms E.trig f0.symbols (f0.frac :: rest.map Frame.frac) S with
  | error e => rw [hsel] at hsel'; cases hsel'
  | ok cs =>
  obtain ⟨coords, sel⟩ := cs
  obtain ⟨h1, h2, h3⟩ := hf coords sel hsel
  exact build_any hfl hsm rfl hone hsel h1 h2 h3 h

theorem defaultGrid_skip {E : Num K} {P : Params K} (hP : DefaultGrid E P) : DefaultGrid E { P with stepSkip := P.stepSkip.mul E.fl (.int 1) } := by
  obtain ⟨a, b, c⟩ := hP
  refine ⟨a, ?_, c⟩
  dsimp only
  rw [a, PyNum.val_mul_id]
  simpa [PyNum.val] using b

theorem frames_any {E : Num K} {P : Params K} {S : Select K} {atoms fw : List ℕ} (hfl : E.fl = id) (hsm : P.sampling = "multi-origin") {F : ℕ} {L : M3 K}
    {u : ℕ → ℕ → V3 K} {f0 : Frame K} {rest : List (Frame K)} (hlen : rest.length + 1 = F) (hf : Follows E S f0 rest L u fw atoms)
    (hone : ∀ ss : PyNum K, ss.val = P.stepSkip.val → ∀ l, initTimeIntervals id E.geo F P.timeStep ss P.minDt P.maxDt P.nSteps P.spacing =
      .ok l → ∀ τ ∈ l, 1 ≤ τ)
    {uni : Universe K} (hU : ∀ fr, uni.2.mapM (mdaFrame uni.1 1) = .ok fr → fr = f0 :: rest) {base : PyM (Base K)} {unit : K}
    (hbase : ReadFrames E P S (f0 :: rest) uni base unit) {B : Base K} (hB : base = .ok B) :
    ∃ (taus : List ℕ) (ss : PyNum K), ss.val = P.stepSkip.val ∧ initTimeIntervals id E.geo F P.timeStep ss P.minDt P.maxDt P.nSteps P.spacing =
        .ok (taus.map fun τ : ℕ => (τ : ℤ)) ∧ PathBase L f0.volume u fw atoms F
      (fun τ : ℕ => (τ : K) * P.stepSkip.val * P.timeStep.val / unit) taus B := by
  have hskip : (P.stepSkip.mul E.fl (.int 1)).val = P.stepSkip.val := by rw [hfl, PyNum.val_mul_id]; simp [PyNum.val]
  rcases hbase with ⟨rfl, rfl⟩ | ⟨rfl, rfl⟩ | ⟨rfl, rfl⟩
  · unfold fromAse analyzerFrom at hB
    simp only [Traj.asOne, bind, Except.bind] at hB
    cases hp : aseParser E P S 1 (f0 :: rest) with
    | error e => rw [hp] at hB; cases hB
    | ok r =>
    rw [hp] at hB
    obtain rfl := Except.ok.inj hB
    unfold aseParser at hp
    rw [pyStride_one] at hp
    simp only [bind, Except.bind, structureCoordsLatt, List.map_cons] at hp
    obtain ⟨taus, t0, -, t2⟩ := follows_any hfl hsm hlen hf (hone _ rfl) hp
    simp only [div_one]
    exact ⟨taus, _, rfl, t0, t2⟩
  · unfold fromPymatgen analyzerFrom at hB
    simp only [Traj.asOne, bind, Except.bind] at hB
    cases hp : pymatgenParser E P S 1 (f0 :: rest) with
    | error e => rw [hp] at hB; cases hB
    | ok r =>
    rw [hp] at hB
    obtain rfl := Except.ok.inj hB
    have h18 := C18_pymatgen E P S hfl 1 _ r hp
    unfold pymatgenParser at hp
    rw [pyStride_one] at hp
    simp only [bind, Except.bind, structureCoordsLatt, List.map_cons] at hp
    cases hb : buildParser E { P with stepSkip := P.stepSkip.mul E.fl (.int 1) } S f0 (f0.frac :: f0.frac :: rest.map Frame.frac)
      (f0.latt :: f0.latt :: rest.map Frame.latt) with
    | error e => rw [hb] at hp; cases hp
    | ok r0 =>
    rw [hb] at hp
    simp only at hp
    split_ifs at hp
    obtain ⟨taus, t0, t1, t2⟩ := follows_any hfl (P := { P with stepSkip := P.stepSkip.mul E.fl (.int 1) }) hsm hlen hf (hone _ hskip) hb
    have hri : r.intervals = r0.intervals ∧ r.disp3d = r0.disp3d ∧ r.volume = r0.volume := by
      rw [← Except.ok.inj hp]; exact ⟨rfl, rfl, rfl⟩
    rw [hri.1, t1, List.map_map] at h18
    refine ⟨taus, _, hskip, t0, t2.range, ?_, ?_, ?_⟩
    · have := t2.volume
      unfold baseOf at this ⊢
      rw [hri.2.2]; exact this
    · unfold baseOf
      rw [h18]
      apply List.map_congr_left
      intro τ _
      simp
    · have := t2.windows
      unfold baseOf at this ⊢
      rw [hri.2.1]; exact this
  · unfold fromUniverse analyzerFrom at hB
    simp only [Traj.asOne, bind, Except.bind] at hB
    cases hp : mdaParser E P S 1 1 uni.1 uni.2 with
    | error e => rw [hp] at hB; cases hB
    | ok r =>
    rw [hp] at hB
    obtain rfl := Except.ok.inj hB
    have h18 := C18_mda E P S hfl 1 1 _ _ r hp
    unfold mdaParser at hp
    simp only [ne_eq, not_true_eq_false, decide_false, Bool.false_and, Bool.false_eq_true, ↓reduceIte, pyStride_one, bind, Except.bind] at hp
    cases hm : uni.2.mapM (mdaFrame uni.1 1) with
    | error e => rw [hm] at hp; cases hp
    | ok fr =>
    rw [hm] at hp
    obtain rfl := hU fr hm
    simp only [structureCoordsLatt, List.map_cons] at hp
    obtain ⟨taus, t0, t1, t2⟩ := follows_any hfl (P := { P with stepSkip := P.stepSkip.mul E.fl (.int 1) }) hsm hlen hf (hone _ hskip) hp
    rw [t1, List.map_map] at h18
    refine ⟨taus, _, hskip, t0, t2.range, t2.volume, ?_, t2.windows⟩
    unfold baseOf
    rw [h18]
    apply List.map_congr_left
    intro τ _
    simp

theorem frames_base {E : Num K} {P : Params K} {S : Select K} {atoms fw : List ℕ} (hP : DefaultGrid E P) {F : ℕ} (hF : 2 ≤ F) {L : M3 K}
    {u : ℕ → ℕ → V3 K} {f0 : Frame K} {rest : List (Frame K)} (hlen : rest.length + 1 = F) (hf : Follows E S f0 rest L u fw atoms)
    {uni : Universe K} (hU : ∀ fr, uni.2.mapM (mdaFrame uni.1 1) = .ok fr → fr = f0 :: rest) {base : PyM (Base K)} {unit : K}
    (hbase : ReadFrames E P S (f0 :: rest) uni base unit) {B : Base K} (hB : base = .ok B) :
    ∃ taus : List ℕ, TrueBase L f0.volume u fw atoms F P.nSteps
      (fun τ : ℕ => (τ : K) * P.stepSkip.val * P.timeStep.val / unit) taus B := by
  obtain ⟨hfl, hpos, hmn, hmx, hsp, hsm⟩ := hP
  obtain ⟨taus, ss, hss, hti, hb⟩ := frames_any hfl hsm hlen hf (by
    rw [hmn, hmx, hsp]
    intro ss hss l hl
    exact (default_intervals (by rw [hss]; exact hpos) hF hl).1) hU hbase hB
  rw [← hss] at hpos
  rw [hmn, hmx, hsp] at hti
  obtain ⟨-, i2⟩ := default_intervals hpos hF hti
  refine ⟨taus, ?_, hb.range, ?_, hb.volume, hb.deltaT, hb.windows⟩
  · rw [List.pairwise_map] at i2
    exact i2.imp fun h => by exact_mod_cast h
  · intro hN
    have := C09_default_intervals E.geo P.timeStep ss hpos F hF P.nSteps hN
    rw [this] at hti
    have := Except.ok.inj hti
    have h2 := congrArg (List.map Int.toNat) this
    simp only [List.map_map] at h2
    have e1 : (Int.toNat ∘ fun i : ℕ => (i : ℤ) + 1) = fun i : ℕ => i + 1 := by funext i; simp
    have e2 : (Int.toNat ∘ fun τ : ℕ => (τ : ℤ)) = id := by funext i; simp
    rw [e1, e2, List.map_id] at h2
    exact h2.symm

/-! ## C101: cells that change -/

/-- `F` frames of atoms with stored fractional positions `s i j` in the cell `C j`. -/
def cellFrames (F : ℕ) (sy : List String) (C : ℕ → M3 K) (V : ℕ → K) (s : ℕ → ℕ → V3 K) : List (Frame K) :=
  (List.range F).map fun j => ⟨sy, (List.range sy.length).map fun i => s i j, C j, V j⟩

/-- The same as an MDAnalysis universe, with Cartesian positions. -/
def cellUniverse (F : ℕ) (sy : List String) (C : ℕ → M3 K) (V : ℕ → K) (s : ℕ → ℕ → V3 K) : Universe K :=
  (sy, (List.range F).map fun j => ⟨(List.range sy.length).map fun i => cart (C j) (s i j), C j, V j⟩)

theorem cellUniverse_frames {F : ℕ} {sy : List String} {C : ℕ → M3 K} {V : ℕ → K} {s : ℕ → ℕ → V3 K} {fr : List (Frame K)}
    (h : (cellUniverse F sy C V s).2.mapM (mdaFrame (cellUniverse F sy C V s).1 1) = .ok fr) : fr = cellFrames F sy C V s := by
  have hd : ∀ j < F, det3 (C j) ≠ 0 := by
    intro j hj hz
    have hmem : (⟨(List.range sy.length).map fun i => cart (C j) (s i j), C j, V j⟩ : MdaFrame K) ∈ (cellUniverse F sy C V s).2 :=
      List.mem_map.mpr ⟨j, by simpa using hj, rfl⟩
    have he : mdaFrame sy 1 (⟨(List.range sy.length).map fun i => cart (C j) (s i j), C j, V j⟩ : MdaFrame K) = .error .linAlgError := by
      unfold mdaFrame
      simp only [pyStride_one, bind, Except.bind, inv3_err hz]
    have := mapM_except_err (mdaFrame sy 1) _ _ _ hmem he fun b hb => by
      unfold mdaFrame
      simp only [pyStride_one, bind, Except.bind]
      by_cases hb' : det3 b.latt = 0
      · left; rw [inv3_err hb']
      · right; rw [inv3_ok hb']; exact ⟨_, rfl⟩
    rw [show (cellUniverse F sy C V s).1 = sy from rfl, this] at h
    cases h
  unfold cellUniverse at h
  rw [mapM_except_ok (g := fun f : MdaFrame K => ⟨sy, f.pos.map fun x => vm x (invFun f.latt), f.latt, f.volume⟩)] at h
  · rw [← Except.ok.inj h, List.map_map]
    unfold cellFrames
    apply List.map_congr_left
    intro j hj
    simp only [Function.comp, Frame.mk.injEq, true_and, and_true]
    rw [List.map_map]
    apply List.map_congr_left
    intro i _
    simp only [Function.comp]
    exact vm_inv_left (hd j (by simpa using hj)) _
  · intro f hf
    obtain ⟨j, hj, rfl⟩ := List.mem_map.mp hf
    unfold mdaFrame
    simp only [pyStride_one, bind, Except.bind, inv3_ok (hd j (by simpa using hj))]

theorem cart_unit (v : V3 K) : cart unitCell v = v := by
  funext l
  simp only [cart, unitCell, mul_ite, mul_one, mul_zero, Finset.sum_ite_eq', Finset.mem_univ, if_true]

/-- In changing cells the unwrapped path is the true one. -/
theorem path_stored {F n : ℕ} {C : ℕ → M3 K} (hC : ∀ j < F, NonSingular (C j)) {s x : ℕ → ℕ → V3 K} (hs : StoredIn F n C s x)
    {Cf : ℕ → M3 K} (hCf : ∀ j < F, Cf j = C j) {y : ℕ → ℕ → V3 K} (hy : ∀ j < F, ∀ i < n, y j i = s i j) {p : ℕ → ℕ → V3 K}
    (hp : IsPath F n Cf y p) : ∀ i < n, ∀ j < F, ∀ l, p i j l = cart unitCell (x i j) l - cart unitCell (x i 0) l := by
  intro i hi j
  simp only [cart_unit]
  induction j with
  | zero => intro _ l; rw [(hp i hi).1]; simp
  | succ j ih =>
    intro hj l
    have hdet : det3 (C (j + 1)) ≠ 0 := by rw [det3_eq_det]; exact hC _ hj
    have hmi := (hp i hi).2 j hj
    rw [hCf (j + 1) hj, hCf j (by omega), hy (j + 1) hj i hi, hy j (by omega) i hi] at hmi
    obtain ⟨⟨h, hh, hx⟩, c, hc⟩ := hs i hi j hj
    have htrue : MinImage (C (j + 1)) (fun l => cart (C (j + 1)) (s i (j + 1)) l - cart (C j) (s i j) l)
        (fun l => x i (j + 1) l - x i j l) := by
      refine ⟨⟨fun k => -c k, fun l => ?_⟩, h, hh, funext hx⟩
      dsimp only
      rw [hc]
      simp only [cart, Fin.sum_univ_three]
      push_cast
      ring
    have := congrFun (minImage_unique hdet hmi htrue) l
    have h2 := ih (by omega) l
    linear_combination this + h2

theorem cell_follows {E : Num K} {S : Select K} {sy : List String} {atoms fw : List ℕ} (hS : Picks S sy atoms fw) {F : ℕ} (hF : 2 ≤ F)
    {C : ℕ → M3 K} {V : ℕ → K} {s x : ℕ → ℕ → V3 K} (hs : StoredIn F sy.length C s x) :
    ∃ f0 rest, cellFrames F sy C V s = f0 :: rest ∧ rest.length + 1 = F ∧ f0.volume = V 0 ∧ Follows E S f0 rest unitCell x fw atoms := by
  cases hw : cellFrames F sy C V s with
  | nil => have := congrArg List.length hw; simp [cellFrames] at this; omega
  | cons f0 rest =>
  have hlen : (f0 :: rest).length = F := by rw [← hw]; simp [cellFrames]
  have hlen' : rest.length + 1 = F := by simpa using hlen
  have h0 : f0 = ⟨sy, (List.range sy.length).map fun i => s i 0, C 0, V 0⟩ := by
    have := congrArg (fun l => l[0]?) hw
    simp [cellFrames, show 0 < F by omega] at this
    exact this.symm
  refine ⟨f0, rest, rfl, hlen', by rw [h0], ?_⟩
  intro coords sel hsel
  obtain ⟨hcs, hci, hcd⟩ := picks_select hS (show selectAtoms E.trig sy (f0.frac :: rest.map Frame.frac) S = .ok (coords, sel) by
    rw [← hsel, h0])
  refine ⟨hci, hcd, ?_⟩
  rw [hlen']
  intro n p a4 a2 a5 a6
  have hcoord : ∀ j < F, coords.getD j [] = (List.range sy.length).map fun i => s i j := by
    intro j hj
    rw [hcs, ← List.map_cons, ← hw]
    simp [cellFrames, hj]
  have hn : n = sy.length := by
    have := a4 (coords.getD 0 []) (by
      rw [List.getD_eq_getElem?_getD, List.getElem?_eq_getElem (by rw [a2]; omega)]
      exact List.getElem_mem _)
    rw [hcoord 0 (by omega)] at this
    simpa using this.symm
  subst hn
  have hCf : ∀ j < F, (f0.latt :: rest.map Frame.latt).getD j 0 = C j := by
    intro j hj
    rw [← List.map_cons (f := Frame.latt), ← hw]
    simp [cellFrames, hj]
  refine ⟨(picks_mem hS).2, (picks_mem hS).1, path_stored (fun j hj => ?_) hs hCf (fun j hj i hi => ?_) a6⟩
  · rw [← hCf j hj]
    apply a5
    rw [List.getD_eq_getElem?_getD, List.getElem?_eq_getElem (by simpa using (by omega : j < rest.length + 1))]
    exact List.getElem_mem _
  · rw [hcoord j hj]
    simp [hi]

/-- **C101 (MSD).** A trajectory in cells that change from frame to frame, stored so that an atom that leaves the cell is put back by whole
edges of the cell at that moment, moving by less than half of that cell per frame: the reported MSD is the average `reportedMsd` of
squared displacements along the true Cartesian path `x`. -/
theorem C101_msd (E : Num K) (P : Params K) (S : Select K) (sy : List String) (atoms fw : List ℕ) (hS : Picks S sy atoms fw)
    (hP : DefaultGrid E P) (F : ℕ) (hF : 2 ≤ F) (C : ℕ → M3 K) (V : ℕ → K) (s x : ℕ → ℕ → V3 K) (hs : StoredIn F sy.length C s x)
    (sq : K → K) (o : Oracle K G) (U : UncParams K) (hblock : U.opt.block = false) (hsub : U.sub = 1) (g g' : G) (Z : Analyzer K)
    (base : PyM (Base K)) (unit : K) (hbase : ReadFrames E P S (cellFrames F sy C V s) (cellUniverse F sy C V s) base unit)
    (h : diffusionAnalyzer sq o g U base = .ok (Z, g')) :
    ∃ taus : List ℕ, taus.Pairwise (· < ·) ∧ (∀ τ ∈ taus, 1 ≤ τ ∧ τ ≤ F) ∧
      ((F : ℤ) ≤ P.nSteps → taus = (List.range F).map fun i => i + 1) ∧ Z.volume = some (V 0) ∧
      Z.diff.n = (resolved atoms.length F taus).map (reportedMsd (axesOf U.dimension) unitCell x fw atoms F) ∧
      Z.diff.dt = (resolved atoms.length F taus).map fun τ : ℕ => (τ : K) * P.stepSkip.val * P.timeStep.val / unit := by
  obtain ⟨B, hB, rfl, hm⟩ := diffusion_inv h
  obtain ⟨f0, rest, hw, hlen, hv, hf⟩ := cell_follows (E := E) (V := V) hS hF hs
  rw [hw] at hbase
  obtain ⟨taus, ht⟩ := frames_base hP hF hlen hf (fun fr h => (cellUniverse_frames h).trans hw) hbase hB
  rw [hv] at ht
  exact ⟨taus, ht.sorted, ht.range, ht.full, ht.volume, msd_of_parsed ht hblock hsub hm⟩

/-- **C101 (MSTD).** The same for the total displacement, over the first half of the intervals. -/
theorem C101_mstd (E : Num K) (P : Params K) (S : Select K) (sy : List String) (atoms fw : List ℕ) (hS : Picks S sy atoms fw)
    (hP : DefaultGrid E P) (F : ℕ) (hF : 2 ≤ F) (C : ℕ → M3 K) (V : ℕ → K) (s x : ℕ → ℕ → V3 K) (hs : StoredIn F sy.length C s x)
    (sq : K → K) (o : Oracle K G) (U : UncParams K) (hblock : U.opt.block = false) (hsub : U.sub = 1) (g g' : G) (Z : Analyzer K)
    (base : PyM (Base K)) (unit : K) (hbase : ReadFrames E P S (cellFrames F sy C V s) (cellUniverse F sy C V s) base unit)
    (h : jumpAnalyzer sq o g U base = .ok (Z, g')) :
    ∃ taus half : List ℕ, taus.Pairwise (· < ·) ∧ (∀ τ ∈ taus, 1 ≤ τ ∧ τ ≤ F) ∧
      ((F : ℤ) ≤ P.nSteps → taus = (List.range F).map fun i => i + 1) ∧ Z.volume = some (V 0) ∧
      half = (resolved atoms.length F taus).take ((resolved atoms.length F taus).length / 2) ∧
      Z.diff.n = half.map (reportedTotal (axesOf U.dimension) unitCell x fw atoms (fun _ => 1) F) ∧
      Z.diff.dt = half.map fun τ : ℕ => (τ : K) * P.stepSkip.val * P.timeStep.val / unit := by
  obtain ⟨B, hB, rfl, hm⟩ := jump_inv h
  obtain ⟨f0, rest, hw, hlen, hv, hf⟩ := cell_follows (E := E) (V := V) hS hF hs
  rw [hw] at hbase
  obtain ⟨taus, ht⟩ := frames_base hP hF hlen hf (fun fr h => (cellUniverse_frames h).trans hw) hbase hB
  rw [hv] at ht
  exact ⟨taus, _, ht.sorted, ht.range, ht.full, ht.volume, rfl, mstd_of_parsed ht hblock hsub hm⟩

/-- **C101 (MSCD).** The same for the charge displacement. -/
theorem C101_mscd (E : Num K) (P : Params K) (S : Select K) (sy : List String) (atoms fw : List ℕ) (hS : Picks S sy atoms fw)
    (hP : DefaultGrid E P) (F : ℕ) (hF : 2 ≤ F) (C : ℕ → M3 K) (V : ℕ → K) (s x : ℕ → ℕ → V3 K) (hs : StoredIn F sy.length C s x)
    (sq : K → K) (o : Oracle K G) (U : UncParams K) (hblock : U.opt.block = false) (hsub : U.sub = 1) (g g' : G) (Z : Analyzer K)
    (base : PyM (Base K)) (unit : K) (hbase : ReadFrames E P S (cellFrames F sy C V s) (cellUniverse F sy C V s) base unit)
    (charge : Charge K) (hq : ∀ l, charge = .array l → l.length = atoms.length)
    (h : conductivityAnalyzer sq o g U charge base = .ok (Z, g')) :
    ∃ taus half : List ℕ, taus.Pairwise (· < ·) ∧ (∀ τ ∈ taus, 1 ≤ τ ∧ τ ≤ F) ∧
      ((F : ℤ) ≤ P.nSteps → taus = (List.range F).map fun i => i + 1) ∧ Z.volume = some (V 0) ∧
      half = (resolved atoms.length F taus).take ((resolved atoms.length F taus).length / 2) ∧
      Z.diff.n = half.map (reportedTotal Finset.univ unitCell x fw atoms charge.of F) ∧
      Z.diff.dt = half.map fun τ : ℕ => (τ : K) * P.stepSkip.val * P.timeStep.val / unit := by
  obtain ⟨B, hB, rfl, hm⟩ := conductivity_inv h
  obtain ⟨f0, rest, hw, hlen, hv, hf⟩ := cell_follows (E := E) (V := V) hS hF hs
  rw [hw] at hbase
  obtain ⟨taus, ht⟩ := frames_base hP hF hlen hf (fun fr h => (cellUniverse_frames h).trans hw) hbase hB
  rw [hv] at ht
  exact ⟨taus, _, ht.sorted, ht.range, ht.full, ht.volume, rfl, mscd_of_parsed ht hq hblock hsub hm⟩

theorem cart_boxOf (e : Fin 3 → K) (v : V3 K) (l : Fin 3) : cart (boxOf e) v l = v l * e l := by
  simp only [cart, boxOf, mul_ite, mul_zero, Finset.sum_ite_eq', Finset.mem_univ, if_true]

theorem breathing_stored {F n : ℕ} {e : ℕ → Fin 3 → K} (he : ∀ j < F, ∀ k, 0 < e j k)
    (hstep : ∀ j, j + 1 < F → ∀ k, 2 * |e (j + 1) k - e j k| < e (j + 1) k) {s : ℕ → V3 K}
    (h01 : ∀ i < n, ∀ k, 0 ≤ s i k ∧ s i k < 1) :
    StoredIn F n (fun j => boxOf (e j)) (fun i _ => s i) fun i j => cart (boxOf (e j)) (s i) := by
  intro i hi j hj
  refine ⟨⟨fun k => s i k * (e (j + 1) k - e j k) / e (j + 1) k, ?_, ?_⟩, 0, ?_⟩
  · intro k
    have h0 := he (j + 1) hj k
    have h1 := hstep j hj k
    obtain ⟨a, b⟩ := h01 i hi k
    have hle : |s i k * (e (j + 1) k - e j k)| ≤ |e (j + 1) k - e j k| := by
      rw [abs_mul, abs_of_nonneg a]
      exact mul_le_of_le_one_left (abs_nonneg _) b.le
    have h2 := abs_le.mp hle
    dsimp only
    rw [le_div_iff₀ h0, div_lt_iff₀ h0]
    constructor <;> linarith [h2.1, h2.2]
  · intro l
    have h0 := (he (j + 1) hj l).ne'
    dsimp only
    rw [cart_boxOf, cart_boxOf, cart_boxOf]
    field_simp
  · intro l
    rw [cart_boxOf (e (j + 1)) (fun k => ((0 : Fin 3 → ℤ) k : K))]
    simp

theorem meanOver_mul_right (l : List ℕ) (f : ℕ → K) (c : K) : meanOver l (fun a => f a * c) = meanOver l f * c := by
  unfold meanOver
  rw [List.sum_map_mul_right]
  ring

theorem meanOver_unit {l : List ℕ} {f : ℕ → K} (h : ∀ a ∈ l, 0 ≤ f a ∧ f a ≤ 1) : 0 ≤ meanOver l f ∧ meanOver l f ≤ 1 := by
  unfold meanOver
  have h1 : 0 ≤ (l.map f).sum ∧ (l.map f).sum ≤ l.length := by
    induction l with
    | nil => simp
    | cons a l ih =>
      obtain ⟨b, c⟩ := ih fun x hx => h x (by simp [hx])
      obtain ⟨d, e⟩ := h a (by simp)
      rw [List.map_cons, List.sum_cons, List.length_cons]
      push_cast
      constructor <;> linarith
  exact ⟨div_nonneg h1.1 (by positivity), div_le_one_of_le₀ h1.2 (by positivity)⟩

theorem breathing_move {F n : ℕ} {e : ℕ → Fin 3 → K} {lo hi : Fin 3 → K} (hb : ∀ j < F, ∀ k, lo k ≤ e j k ∧ e j k ≤ hi k) {s : ℕ → V3 K}
    (h01 : ∀ i < n, ∀ k, 0 ≤ s i k ∧ s i k < 1) {fw : List ℕ} (hfw : ∀ a ∈ fw, a < n) {i : ℕ} (hi' : i < n) (A : Finset (Fin 3))
    {a b : ℕ} (ha : a < F) (hb' : b < F) :
    lengthSq A (trueMove unitCell (fun i j => cart (boxOf (e j)) (s i)) fw i a b) ≤ ∑ k ∈ A, (hi k - lo k) ^ 2 := by
  unfold lengthSq
  apply Finset.sum_le_sum
  intro l _
  have hm : trueMove unitCell (fun i j => cart (boxOf (e j)) (s i)) fw i a b l = (s i l - meanOver fw fun a => s a l) * (e b l - e a l) := by
    unfold trueMove
    simp only [cart_unit, cart_boxOf]
    have : (fun c => s c l * e b l - s c l * e a l) = fun c => s c l * (e b l - e a l) := by funext c; ring
    rw [this, meanOver_mul_right]
    ring
  obtain ⟨m0, m1⟩ := meanOver_unit (l := fw) (f := fun a => s a l) fun a ha => ⟨(h01 a (hfw a ha) l).1, (h01 a (hfw a ha) l).2.le⟩
  obtain ⟨s0, s1⟩ := h01 i hi' l
  obtain ⟨a0, a1⟩ := hb a ha l
  obtain ⟨b0, b1⟩ := hb b hb' l
  rw [hm, mul_pow]
  have h1 : (s i l - meanOver fw fun a => s a l) ^ 2 ≤ 1 := by
    rw [sq_le_one_iff_abs_le_one, abs_le]
    constructor <;> linarith
  have h2 : (e b l - e a l) ^ 2 ≤ (hi l - lo l) ^ 2 := by
    apply sq_le_sq'
    · linarith
    · linarith
  calc _ ≤ 1 * (e b l - e a l) ^ 2 := mul_le_mul_of_nonneg_right h1 (sq_nonneg _)
    _ ≤ _ := by rw [one_mul]; exact h2

theorem reportedMsd_le {A : Finset (Fin 3)} {L : M3 K} {u : ℕ → ℕ → V3 K} {fw atoms : List ℕ} {F τ : ℕ} {B : K} (hB : 0 ≤ B) (h1 : 1 ≤ τ) (h2 : τ ≤ F)
    (h : ∀ i ∈ atoms, ∀ a < F, ∀ b < F, lengthSq A (trueMove L u fw i a b) ≤ B) : reportedMsd A L u fw atoms F τ ≤ B := by
  unfold reportedMsd
  have hs : (atoms.map fun i => lengthSq A (trueMove L u fw i 0 (τ - 1)) +
      ∑ s ∈ Finset.range (F - τ), lengthSq A (trueMove L u fw i s (s + τ))).sum ≤ (atoms.length : K) * ((F - τ + 1 : ℕ) : K) * B := by
    have : ∀ x ∈ atoms.map (fun i => lengthSq A (trueMove L u fw i 0 (τ - 1)) +
        ∑ s ∈ Finset.range (F - τ), lengthSq A (trueMove L u fw i s (s + τ))), x ≤ ((F - τ + 1 : ℕ) : K) * B := by
      intro x hx
      obtain ⟨i, hi, rfl⟩ := List.mem_map.mp hx
      have e1 := h i hi 0 (by omega) (τ - 1) (by omega)
      have e2 : ∑ s ∈ Finset.range (F - τ), lengthSq A (trueMove L u fw i s (s + τ)) ≤ ∑ _s ∈ Finset.range (F - τ), B := by
        apply Finset.sum_le_sum
        intro s hs
        rw [Finset.mem_range] at hs
        exact h i hi s (by omega) (s + τ) (by omega)
      rw [Finset.sum_const, Finset.card_range, nsmul_eq_mul] at e2
      push_cast
      linarith
    have := List.sum_le_card_nsmul _ _ this
    rw [List.length_map, nsmul_eq_mul] at this
    linarith
  rcases Nat.eq_zero_or_pos atoms.length with h0 | h0
  · rw [h0]; simp [hB]
  · rw [div_le_iff₀ (by positivity)]
    linarith

/-- **C101, breathing.** Atoms at rest in a cell with right angles whose edges stay between `lo` and `hi`, changing by less than half per
frame: however long the trajectory, no reported value exceeds the squared variation of the edges.  Volume fluctuations are not taken for
diffusion. -/
theorem C101_breathing (E : Num K) (P : Params K) (S : Select K) (sy : List String) (atoms fw : List ℕ) (hS : Picks S sy atoms fw)
    (hP : DefaultGrid E P) (F : ℕ) (hF : 2 ≤ F) (e : ℕ → Fin 3 → K) (he : ∀ j < F, ∀ k, 0 < e j k)
    (hstep : ∀ j, j + 1 < F → ∀ k, 2 * |e (j + 1) k - e j k| < e (j + 1) k) (lo hi : Fin 3 → K)
    (hb : ∀ j < F, ∀ k, lo k ≤ e j k ∧ e j k ≤ hi k) (V : ℕ → K) (s : ℕ → V3 K) (h01 : ∀ i < sy.length, ∀ k, 0 ≤ s i k ∧ s i k < 1)
    (sq : K → K) (o : Oracle K G) (U : UncParams K) (hblock : U.opt.block = false) (hsub : U.sub = 1) (g g' : G) (Z : Analyzer K)
    (base : PyM (Base K)) (unit : K)
    (hbase : ReadFrames E P S (cellFrames F sy (fun j => boxOf (e j)) V fun i _ => s i)
      (cellUniverse F sy (fun j => boxOf (e j)) V fun i _ => s i) base unit)
    (h : diffusionAnalyzer sq o g U base = .ok (Z, g')) :
    ∀ v ∈ Z.diff.n, v ≤ ∑ k ∈ axesOf U.dimension, (hi k - lo k) ^ 2 := by
  obtain ⟨taus, h1, h2, -, -, hn, -⟩ := C101_msd E P S sy atoms fw hS hP F hF _ V _ _ (breathing_stored he hstep h01) sq o U hblock hsub g g' Z
    base unit hbase h
  intro v hv
  rw [hn] at hv
  obtain ⟨τ, hτ, rfl⟩ := List.mem_map.mp hv
  obtain ⟨t1, t2⟩ := h2 τ (List.mem_filter.mp hτ).1
  exact reportedMsd_le (Finset.sum_nonneg fun k _ => sq_nonneg _) t1 t2 fun i hi a ha b hb' =>
    breathing_move hb h01 (picks_mem hS).2 ((picks_mem hS).1 i hi) _ ha hb'

/-! ### Examples -/

/-- Edge of a cubic cell in four frames. -/
def exEdge (j : ℕ) : ℚ := [10, 11, 10, 12].getD j 1

/-- A lithium atom that leaves the cell between the frames 1 and 2, an oxygen atom at rest in the middle, a lithium atom at the origin. -/
def exPathX (i j : ℕ) : V3 ℚ := fun k => if k = 0 then (if i = 0 then [9, 10, 12, 13].getD j 0 else if i = 1 then exEdge j / 2 else 0) else 0

/-- The same in stored fractional coordinates. -/
def exPathS (i j : ℕ) : V3 ℚ := fun k => if k = 0 then (if i = 0 then [9 / 10, 10 / 11, 2 / 10, 3 / 12].getD j 0 else if i = 1 then 1 / 2 else 0) else 0

theorem exStored : StoredIn 4 3 (fun j => boxOf fun _ => exEdge j) exPathS exPathX := by
  intro i hi j hj
  have hd : ∀ i < 3, ∀ j < 3, ((HalfCell fun k : Fin 3 => if k = 0 then (exPathX i (j + 1) 0 - exPathX i j 0) / exEdge (j + 1) else 0) ∧
      ∀ l, exPathX i (j + 1) l - exPathX i j l = cart (boxOf fun _ => exEdge (j + 1))
        (fun k => if k = 0 then (exPathX i (j + 1) 0 - exPathX i j 0) / exEdge (j + 1) else 0) l) ∧
      ∀ l, cart (boxOf fun _ => exEdge (j + 1)) (exPathS i (j + 1)) l - cart (boxOf fun _ => exEdge j) (exPathS i j) l =
        exPathX i (j + 1) l - exPathX i j l -
          cart (boxOf fun _ => exEdge (j + 1)) (fun k => (((if k = 0 ∧ i = 0 ∧ j = 1 then 1 else 0 : ℤ)) : ℚ)) l := by
    unfold HalfCell
    decide +kernel
  obtain ⟨⟨h1, h2⟩, h3⟩ := hd i hi j (by omega)
  exact ⟨⟨_, h1, h2⟩, _, h3⟩

/-- `C101_msd` for this trajectory, as an MDAnalysis universe. -/
example : ∃ Z, diffusionAnalyzer id (exOracle ℚ) () exUnc (fromUniverse exNum exParams exSelect 1 1 none
      (.one (cellUniverse 4 ["Li", "O", "Li"] (fun j => boxOf fun _ => exEdge j) (fun j => exEdge j ^ 3) exPathS))) = .ok (Z, ()) ∧
    Z.volume = some 1000 ∧ Z.diff.n = (resolved 2 4 [1, 2, 3, 4]).map (reportedMsd (axesOf exUnc.dimension) unitCell exPathX [1] [0, 2] 4) := by
  obtain ⟨⟨Z, g⟩, h⟩ := ok_of_isSome (x := diffusionAnalyzer id (exOracle ℚ) () exUnc (fromUniverse exNum exParams exSelect 1 1 none
      (.one (cellUniverse 4 ["Li", "O", "Li"] (fun j => boxOf fun _ => exEdge j) (fun j => exEdge j ^ 3) exPathS)))) (by decide +kernel)
  obtain ⟨taus, -, -, ht, hv, hn, -⟩ := C101_msd exNum exParams exSelect ["Li", "O", "Li"] _ _ exPicks exGrid 4 (by decide) _ (fun j => exEdge j ^ 3) _ _
    exStored id (exOracle ℚ) exUnc rfl rfl () () Z _ 1 (.inr (.inr ⟨rfl, rfl⟩)) h
  rw [ht (by decide +kernel)] at hn
  exact ⟨Z, h, by rw [hv]; decide +kernel, hn⟩

/-- The moves seen by the atom that crosses a face, relative to the oxygen atom: 1/2, 5/2, 0. -/
example : (List.range 3).map (fun j => trueMove unitCell exPathX [1] 0 j (j + 1) 0) = [1 / 2, 5 / 2, (0 : ℚ)] := by decide +kernel

/-- `C101_mstd` and `C101_mscd` for this trajectory, as ASE frames. -/
example : ∃ Z Z', jumpAnalyzer id (exOracle ℚ) () exUnc (fromAse exNum exParams exSelect 1 none
      (.one (cellFrames 4 ["Li", "O", "Li"] (fun j => boxOf fun _ => exEdge j) (fun j => exEdge j ^ 3) exPathS))) = .ok (Z, ()) ∧
    conductivityAnalyzer id (exOracle ℚ) () exUnc (.array [1, -1]) (fromAse exNum exParams exSelect 1 none
      (.one (cellFrames 4 ["Li", "O", "Li"] (fun j => boxOf fun _ => exEdge j) (fun j => exEdge j ^ 3) exPathS))) = .ok (Z', ()) ∧
    Z.diff.n = ((resolved 2 4 [1, 2, 3, 4]).take 2).map (reportedTotal (axesOf exUnc.dimension) unitCell exPathX [1] [0, 2] (fun _ => 1) 4) ∧
    Z'.diff.n = ((resolved 2 4 [1, 2, 3, 4]).take 2).map (reportedTotal Finset.univ unitCell exPathX [1] [0, 2] (Charge.of (.array [1, -1])) 4) := by
  obtain ⟨⟨Z, g⟩, h⟩ := ok_of_isSome (x := jumpAnalyzer id (exOracle ℚ) () exUnc (fromAse exNum exParams exSelect 1 none
      (.one (cellFrames 4 ["Li", "O", "Li"] (fun j => boxOf fun _ => exEdge j) (fun j => exEdge j ^ 3) exPathS)))) (by decide +kernel)
  obtain ⟨⟨Z', g'⟩, h'⟩ := ok_of_isSome (x := conductivityAnalyzer id (exOracle ℚ) () exUnc (.array [1, -1]) (fromAse exNum exParams exSelect 1 none
      (.one (cellFrames 4 ["Li", "O", "Li"] (fun j => boxOf fun _ => exEdge j) (fun j => exEdge j ^ 3) exPathS)))) (by decide +kernel)
  obtain ⟨taus, half, -, -, ht, -, hh, hn, -⟩ := C101_mstd exNum exParams exSelect ["Li", "O", "Li"] _ _ exPicks exGrid 4 (by decide) _
    (fun j => exEdge j ^ 3) _ _ exStored id (exOracle ℚ) exUnc rfl rfl () () Z _ 1 (.inl ⟨rfl, rfl⟩) h
  obtain ⟨taus', half', -, -, ht', -, hh', hn', -⟩ := C101_mscd exNum exParams exSelect ["Li", "O", "Li"] _ _ exPicks exGrid 4 (by decide) _
    (fun j => exEdge j ^ 3) _ _ exStored id (exOracle ℚ) exUnc rfl rfl () () Z' _ 1 (.inl ⟨rfl, rfl⟩) (.array [1, -1])
    (fun l e => (Charge.array.inj e) ▸ rfl) h'
  rw [hh, ht (by decide +kernel)] at hn
  rw [hh', ht' (by decide +kernel)] at hn'
  exact ⟨Z, Z', h, h', hn, hn'⟩

/-- `C101_breathing`: atoms at rest in the same cells. -/
example : ∃ Z, diffusionAnalyzer id (exOracle ℚ) () exUnc (fromAse exNum exParams exSelect 1 none
      (.one (cellFrames 4 ["Li", "O", "Li"] (fun j => boxOf fun _ => exEdge j) (fun j => exEdge j ^ 3) fun i _ => ![(i : ℚ) / 4, 1 / 2, 0]))) = .ok (Z, ()) ∧
    ∀ v ∈ Z.diff.n, v ≤ ∑ k ∈ axesOf exUnc.dimension, ((12 : ℚ) - 10) ^ 2 := by
  obtain ⟨⟨Z, g⟩, h⟩ := ok_of_isSome (x := diffusionAnalyzer id (exOracle ℚ) () exUnc (fromAse exNum exParams exSelect 1 none
      (.one (cellFrames 4 ["Li", "O", "Li"] (fun j => boxOf fun _ => exEdge j) (fun j => exEdge j ^ 3) fun i _ => ![(i : ℚ) / 4, 1 / 2, 0])))) (by decide +kernel)
  refine ⟨Z, h, C101_breathing exNum exParams exSelect ["Li", "O", "Li"] _ _ exPicks exGrid 4 (by decide) (fun j _ => exEdge j) (by decide +kernel) ?_
    (fun _ => 10) (fun _ => 12) (by decide +kernel) (fun j => exEdge j ^ 3) _ (by decide +kernel) id (exOracle ℚ) exUnc rfl rfl () () Z _ 1
    (.inl ⟨rfl, rfl⟩) h⟩
  have : ∀ j < 3, ∀ k : Fin 3, 2 * |exEdge (j + 1) - exEdge j| < exEdge (j + 1) := by decide +kernel
  exact fun j hj => this j (by omega)

end Kinisi
