import Verif.Spec.SingleOrigin
import Verif.Props.Paths
import Verif.Props.Totality

/-!
# C110: `sampling='single-origin'` from the trajectory to the reported curves
-/

set_option linter.unusedSectionVars false
set_option linter.unusedVariables false

namespace Kinisi
open Spec
variable {K : Type} [Field K] [LinearOrder K] [IsStrictOrderedRing K] [FloorRing K] {G : Type}

/-- The default time grid, with displacements from the first frame only. -/
def SingleGrid (E : Num K) (P : Params K) : Prop :=
  E.fl = id ∧ 0 < P.stepSkip.val * P.timeStep.val ∧ P.minDt = none ∧ P.maxDt = none ∧ P.spacing = "linear" ∧
    P.sampling = "single-origin" ∧ 1 ≤ P.nSteps

/-- What reading a trajectory without sub-sampling comes to, for each of the three formats. -/
theorem readFrames_inv {E : Num K} {P : Params K} {S : Select K} (hfl : E.fl = id) {f0 : Frame K} {rest : List (Frame K)} {uni : Universe K}
    (hU : ∀ fr, uni.2.mapM (mdaFrame uni.1 1) = .ok fr → fr = f0 :: rest) {base : PyM (Base K)} {unit : K}
    (hbase : ReadFrames E P S (f0 :: rest) uni base unit) {B : Base K} (hB : base = .ok B) :
    ∃ (ss : PyNum K) (r : Parsed K), ss.val = P.stepSkip.val ∧
      buildParser E { P with stepSkip := ss } S f0 (f0.frac :: f0.frac :: rest.map Frame.frac) (f0.latt :: f0.latt :: rest.map Frame.latt) = .ok r ∧
      B.disp3d = r.disp3d ∧ B.nO = r.nO ∧ B.volume = r.volume ∧
      B.deltaT = r.intervals.map fun τ : ℤ => (τ : K) * P.stepSkip.val * P.timeStep.val / unit := by
  have hskip : (P.stepSkip.mul E.fl (.int 1)).val = P.stepSkip.val := by rw [hfl, PyNum.val_mul_id]; simp [PyNum.val]
  rcases hbase with ⟨rfl, rfl⟩ | ⟨rfl, rfl⟩ | ⟨rfl, rfl⟩
  · unfold fromAse analyzerFrom at hB
    simp only [Traj.asOne, bind, Except.bind] at hB
    cases hp : aseParser E P S 1 (f0 :: rest) with
    | error e => rw [hp] at hB; cases hB
    | ok r =>
    rw [hp] at hB
    obtain rfl := Except.ok.inj hB
    unfold aseParser at hp
    rw [pyStride_one] at hp
    simp only [bind, Except.bind, structureCoordsLatt, List.map_cons] at hp
    refine ⟨P.stepSkip, r, rfl, hp, rfl, rfl, rfl, ?_⟩
    simp only [div_one]
    exact deltaT_exact E P S hfl _ _ _ _ hp
  · unfold fromPymatgen analyzerFrom at hB
    simp only [Traj.asOne, bind, Except.bind] at hB
    cases hp : pymatgenParser E P S 1 (f0 :: rest) with
    | error e => rw [hp] at hB; cases hB
    | ok r =>
    rw [hp] at hB
    obtain rfl := Except.ok.inj hB
    have h18 := C18_pymatgen E P S hfl 1 _ r hp
    unfold pymatgenParser at hp
    rw [pyStride_one] at hp
    simp only [bind, Except.bind, structureCoordsLatt, List.map_cons] at hp
    cases hb : buildParser E { P with stepSkip := P.stepSkip.mul E.fl (.int 1) } S f0 (f0.frac :: f0.frac :: rest.map Frame.frac)
      (f0.latt :: f0.latt :: rest.map Frame.latt) with
    | error e => rw [hb] at hp; cases hp
    | ok r0 =>
    rw [hb] at hp
    simp only at hp
    split_ifs at hp
    have hri : r.intervals = r0.intervals ∧ r.disp3d = r0.disp3d ∧ r.volume = r0.volume ∧ r.nO = r0.nO := by
      rw [← Except.ok.inj hp]; exact ⟨rfl, rfl, rfl, rfl⟩
    refine ⟨_, r0, hskip, hb, hri.2.1, hri.2.2.2, hri.2.2.1, ?_⟩
    unfold baseOf
    rw [h18, hri.1]
    simp
  · unfold fromUniverse analyzerFrom at hB
    simp only [Traj.asOne, bind, Except.bind] at hB
    cases hp : mdaParser E P S 1 1 uni.1 uni.2 with
    | error e => rw [hp] at hB; cases hB
    | ok r =>
    rw [hp] at hB
    obtain rfl := Except.ok.inj hB
    have h18 := C18_mda E P S hfl 1 1 _ _ r hp
    unfold mdaParser at hp
    simp only [ne_eq, not_true_eq_false, decide_false, Bool.false_and, Bool.false_eq_true, ↓reduceIte, pyStride_one, bind, Except.bind] at hp
    cases hm : uni.2.mapM (mdaFrame uni.1 1) with
    | error e => rw [hm] at hp; cases hp
    | ok fr =>
    rw [hm] at hp
    obtain rfl := hU fr hm
    simp only [structureCoordsLatt, List.map_cons] at hp
    refine ⟨_, r, hskip, hp, rfl, rfl, rfl, ?_⟩
    unfold baseOf
    rw [h18]
    simp

/-- The object holds, for the interval at position `i` of the list, the displacements from the first frame to frame `i`. -/
structure SingleBase (L : M3 K) (V : K) (u : ℕ → ℕ → V3 K) (fw atoms : List ℕ) (t : ℕ → K) (taus : List ℕ) (B : Base K) : Prop where
  volume : B.volume = some V
  deltaT : B.deltaT = taus.map t
  count : B.disp3d.length = taus.length
  moves : ∀ i a, B.disp3d[i]? = some a → a.n0 = atoms.length ∧ a.n1 = 1 ∧
    ∀ s, (hs : s < atoms.length) → ∀ l, a.get s 0 l = trueMove L u fw atoms[s] 0 i l
  nO : B.nO = taus.map fun τ : ℕ => (((atoms.length * taus.getLastD 0 : ℕ) : K)) / (τ : K)

theorem single_frames {E : Num K} {P : Params K} {S : Select K} {atoms fw : List ℕ} (hP : SingleGrid E P) (h2 : 2 ≤ atoms.length) {F : ℕ}
    (hF : 2 ≤ F) {L : M3 K} {u : ℕ → ℕ → V3 K} {f0 : Frame K} {rest : List (Frame K)} (hlen : rest.length + 1 = F)
    (hf : Follows E S f0 rest L u fw atoms)
    {uni : Universe K} (hU : ∀ fr, uni.2.mapM (mdaFrame uni.1 1) = .ok fr → fr = f0 :: rest) {base : PyM (Base K)} {unit : K}
    (hbase : ReadFrames E P S (f0 :: rest) uni base unit) {B : Base K} (hB : base = .ok B) :
    ∃ taus : List ℕ, 1 ∈ taus ∧ (∀ τ ∈ taus, 1 ≤ τ ∧ τ ≤ F) ∧ taus.Pairwise (· < ·) ∧
      ((F : ℤ) ≤ P.nSteps → taus = (List.range F).map fun i => i + 1) ∧
      SingleBase L f0.volume u fw atoms (fun τ : ℕ => (τ : K) * P.stepSkip.val * P.timeStep.val / unit) taus B := by
  obtain ⟨hfl, hpos, hmn, hmx, hsp, hsm, hn⟩ := hP
  obtain ⟨ss, r, hss, hb, b1, b2, b3, b4⟩ := readFrames_inv hfl hU hbase hB
  rw [← hss] at hpos
  obtain ⟨coords, sel, n, p, c1, c2, c3, c4, c5, c6, c7, c8, c9, c10, c11, c12⟩ := buildParser_dc hb
  obtain ⟨coords', sel', w', disp', r0, hsel', hdisp', hinit, hr⟩ := buildParser_inv hb
  obtain ⟨-, hti, hgd, hidx, -, -⟩ := parserInit_inv hinit
  have hsel : sel'.indices = sel.indices := by rw [← c7, hr, ← hidx]
  have hdc : r0.dc = r.dc := by rw [hr]
  have hi0 : r0.intervals = r.intervals := by rw [hr]
  have h30 : r0.disp3d = r.disp3d := by rw [hr]
  have hno : r0.nO = r.nO := by rw [hr]
  have hvol : r.volume = some f0.volume := by rw [hr]
  dsimp only at hti hgd
  have hlr : (rest.map Frame.frac).length + 1 = F := by simpa using hlen
  rw [hlr] at c2 c6 c9 c12
  obtain ⟨nat, t1, t2, t3, t4⟩ := default_intervals_ok E.geo hpos hF hn
  rw [hdc, hi0, c9, hfl, hmn, hmx, hsp, t1] at hti
  have hiv := (Except.ok.inj hti).symm
  subst hlen
  obtain ⟨s1, s2, s3⟩ := hf coords sel c1
  obtain ⟨hfm, ham, hp⟩ := s3 n p c4 c2 c5 c6
  rw [hsm, hfl, hsel, hdc, hi0, h30, hno, s1] at hgd
  have hle : nat.length ≤ rest.length + 1 := by
    have : nat ⊆ (List.range (rest.length + 1)).map (· + 1) := by
      intro τ hτ
      have := t3 τ hτ
      exact List.mem_map.2 ⟨τ - 1, List.mem_range.2 (by omega), by omega⟩
    have := (List.subperm_of_subset (t4.imp fun h => h.ne) this).length_le
    simpa using this
  by_cases hmem : P.memoryLimit < id (((r.intervals.map fun τ => intervalBytes P.itemsize (atoms.map fun k : ℕ => (k : ℤ)).length r.dc.n1 τ).sum : ℕ) * (id (1 / 10 ^ 9 : K)))
  · exfalso
    unfold getDisps at hgd
    have hr' : checkRows r.intervals (atoms.map fun k : ℕ => (k : ℤ)) r.dc.n0 =
        .ok (if r.intervals.length = 0 then [] else (atoms.map fun k : ℕ => (k : ℤ)).map (atomOf r.dc.n0)) := by
      unfold checkRows
      split_ifs
      · rfl
      · exact rows_ok (by
          intro d hd
          obtain ⟨k, hk, rfl⟩ := List.mem_map.1 hd
          have := ham k hk
          unfold ValidIdx
          rw [c8]; omega)
    rw [hr'] at hgd
    simp only [bind, Except.bind] at hgd
    rw [if_pos hmem] at hgd
    cases hgd
  · rw [getDisps_single _ _ _ _ _ _ _ _ _ (by
          intro d hd
          obtain ⟨k, hk, rfl⟩ := List.mem_map.1 hd
          have := ham k hk
          unfold ValidIdx
          rw [c8]; omega) (by simpa using h2) (by
          intro τ hτ
          rw [hiv] at hτ
          obtain ⟨k, hk, rfl⟩ := List.mem_map.1 hτ
          have := t3 k hk
          omega) (by rw [hiv, c9]; simpa using hle) hmem] at hgd
    have hg := Except.ok.inj hgd
    have e3 := congrArg DispsOut.disp3d hg
    have e4 := congrArg DispsOut.nO hg
    dsimp only at e3 e4
    refine ⟨nat, t2, t3, t4, ?_, ?_⟩
    · intro hN
      have := C09_default_intervals E.geo P.timeStep ss hpos (rest.length + 1) hF P.nSteps hN
      rw [this] at t1
      have h2 := congrArg (List.map Int.toNat) (Except.ok.inj t1)
      simp only [List.map_map] at h2
      have e1 : (Int.toNat ∘ fun i : ℕ => (i : ℤ) + 1) = fun i : ℕ => i + 1 := by funext i; simp
      have e2 : (Int.toNat ∘ fun τ : ℕ => (τ : ℤ)) = id := by funext i; simp
      rw [e1, e2, List.map_id] at h2
      exact h2.symm
    · refine ⟨by rw [b3, hvol], ?_, ?_, ?_, ?_⟩
      · rw [b4, hiv, List.map_map]
        apply List.map_congr_left
        intro τ _
        simp
      · rw [b1, ← e3, hiv]; simp
      · intro i a ha
        rw [b1, ← e3, hiv] at ha
        have hi : i < nat.length := by
          by_contra hc
          rw [List.getElem?_eq_none (by simpa using hc)] at ha
          cases ha
        rw [List.getElem?_map, List.getElem?_zipIdx, List.getElem?_map, List.getElem?_eq_getElem hi] at ha
        simp only [Option.map_some, Option.some.injEq, zero_add] at ha
        subst ha
        refine ⟨by simp [singleOrigin], ?_, ?_⟩
        · have e : ((i : ℤ) + 1) = ((i + 1 : ℕ) : ℤ) := by push_cast; ring
          simp only [singleOrigin, e, sliceBound_nat]
          omega
        · intro s hs l
          simp only [singleOrigin, c8, map_atomOf]
          have hrow : atoms.getD s 0 = atoms[s] := by simp [List.getD, hs]
          rw [hrow, Nat.add_zero, c12 _ _ _ (by omega), s2, map_atomOf,
            ← trueMove_of_path hp hfm (ham _ (List.getElem_mem hs)) (by omega) (by omega)]
          have : relTo fw p atoms[s] 0 l = 0 := by
            have e : (fun a => p a 0 l) = fun _ => (0 : K) := by funext a; exact c11 a l
            simp only [relTo, e, meanOver_zero, sub_zero]
            exact c11 _ l
          rw [this, sub_zero]
      · rw [b2, ← e4, hiv]
        have hlast : (nat.map fun τ : ℕ => (τ : ℤ)).getLastD 0 = ((nat.getLastD 0 : ℕ) : ℤ) := by
          cases nat using List.reverseRecOn with
          | nil => rfl
          | append_singleton l a => simp
        rw [hlast]
        apply List.ext_getElem
        · simp
        · intro i h1 h2
          simp

/-- The squared displacements of one observation per atom. -/
theorem single_sq {L : M3 K} {u : ℕ → ℕ → V3 K} {fw atoms : List ℕ} {i : ℕ} {a : Arr3 K} (h0 : a.n0 = atoms.length)
    (hm : ∀ s, (hs : s < atoms.length) → ∀ l, a.get s 0 l = trueMove L u fw atoms[s] 0 i l) (A : Finset (Fin 3)) (f : K → K) :
    ∑ k ∈ Finset.range a.n0, f (sqLen A a (k, 0)) = (atoms.map fun j => f (lengthSq A (trueMove L u fw j 0 i))).sum := by
  rw [h0, Finset.sum_range, ← List.sum_ofFn]
  have hl : atoms = List.ofFn fun i : Fin atoms.length => atoms[i] := by simp
  conv_rhs => rw [hl]
  rw [List.map_ofFn]
  congr 2
  funext k
  simp only [Function.comp]
  congr 1
  unfold sqLen lengthSq
  exact Finset.sum_congr rfl fun x _ => by rw [hm k k.2 x]; rfl

theorem single_msd {L : M3 K} {u : ℕ → ℕ → V3 K} {fw atoms : List ℕ} {i : ℕ} {a : Arr3 K} (h0 : a.n0 = atoms.length) (h1 : a.n1 = 1)
    (hm : ∀ s, (hs : s < atoms.length) → ∀ l, a.get s 0 l = trueMove L u fw atoms[s] 0 i l) (A : Finset (Fin 3)) :
    msd A a = fromStart A L u fw atoms i := by
  have := single_sq h0 hm A id
  unfold msd fromStart
  simp only [id] at this
  rw [← this, h1, h0]
  simp [sqLen]

theorem single_var {L : M3 K} {u : ℕ → ℕ → V3 K} {fw atoms : List ℕ} {i : ℕ} {a : Arr3 K} (h0 : a.n0 = atoms.length) (h1 : a.n1 = 1)
    (hm : ∀ s, (hs : s < atoms.length) → ∀ l, a.get s 0 l = trueMove L u fw atoms[s] 0 i l) (A : Finset (Fin 3)) :
    varOn (pairs a) (sqLen A a) = spreadFromStart A L u fw atoms i := by
  have e1 := single_sq h0 hm A id
  have hmean : meanOn (pairs a) (sqLen A a) = fromStart A L u fw atoms i := by
    unfold meanOn pairs fromStart
    simp only [id] at e1
    rw [← e1, h1, Finset.sum_product, Finset.card_product, Finset.card_range, Finset.card_range, h0]
    simp
  unfold varOn spreadFromStart
  rw [hmean, ← single_sq h0 hm A fun x => (x - fromStart A L u fw atoms i) ^ 2]
  unfold pairs
  rw [h1, Finset.sum_product, Finset.card_product, Finset.card_range, Finset.card_range, h0]
  simp

theorem msd_of_single {L : M3 K} {V : K} {u : ℕ → ℕ → V3 K} {fw atoms : List ℕ} {t : ℕ → K} {taus : List ℕ} {B : Base K}
    (hB : SingleBase L V u fw atoms t taus B) (h2 : 2 ≤ atoms.length) {sq : K → K} {o : Oracle K G} {U : UncParams K}
    (hblock : U.opt.block = false) (hsub : U.sub = 1) {g g' : G} {b : Boot K}
    (h : msdBootstrap sq o U.opt g B.deltaT B.disp3d B.nO U.sub U.dimension = .ok (b, g')) :
    b.n = (List.range taus.length).map (fromStart (axesOf U.dimension) L u fw atoms) ∧ b.dt = taus.map t := by
  obtain ⟨-, hd, hc, hmv, -⟩ := hB
  obtain ⟨ds, dts, e1, e2, e3, e4, e5⟩ := C28_msd sq o U.opt hblock g g' B.deltaT B.disp3d B.nO U.sub U.dimension b h
  rw [hsub, pyStride_one] at e1 e2
  obtain rfl := Except.ok.inj e1
  obtain rfl := Except.ok.inj e2
  have hfull : b.n.length = taus.length := by
    apply le_antisymm
    · by_contra hc'
      push Not at hc'
      obtain ⟨a, ha, -⟩ := e4 taus.length hc'
      rw [List.getElem?_eq_none (by omega)] at ha
      cases ha
    · by_contra hc'
      push Not at hc'
      have hlt : b.n.length < B.disp3d.length := by omega
      have ha := List.getElem?_eq_getElem hlt
      have hle := e5 b.n.length le_rfl _ ha
      obtain ⟨f0, f1, -⟩ := hmv _ _ ha
      rw [f0, f1] at hle
      omega
  constructor
  · apply List.ext_getElem (by simp [hfull])
    intro i hi hi'
    obtain ⟨a, ha, -, hn, -⟩ := e4 i hi
    obtain ⟨f0, f1, f2⟩ := hmv i a ha
    rw [List.getElem?_eq_getElem hi] at hn
    rw [Option.some.inj hn, single_msd f0 f1 f2]
    simp
  · apply List.ext_getElem (by simp [e3, hfull])
    intro i hi hi'
    obtain ⟨a, ha, -, -, hdt⟩ := e4 i (by omega)
    rw [hd, List.getElem?_eq_getElem hi, List.getElem?_eq_getElem hi'] at hdt
    exact Option.some.inj hdt

/-- **C110, MSD (partial).** With displacements from the first frame only, the reported MSD of the interval at position `i` of the list is
the mean over the chosen atoms of the squared true displacement from the first frame to frame `i`, whatever the interval is; with the
default grid it is reported for the time of `i + 1` frames.  The full claim, displacement to frame `τ` for an interval of `τ` frames, is
false (`C110_violated`). -/
theorem C110_msd_partial (E : Num K) (P : Params K) (S : Select K) (sy : List String) (atoms fw : List ℕ) (hS : Picks S sy atoms fw)
    (h2 : 2 ≤ atoms.length) (hP : SingleGrid E P) (F : ℕ) (hF : 2 ≤ F) (C : ℕ → M3 K) (V : ℕ → K) (s x : ℕ → ℕ → V3 K)
    (hs : StoredIn F sy.length C s x) (sq : K → K) (o : Oracle K G) (U : UncParams K) (hblock : U.opt.block = false) (hsub : U.sub = 1)
    (g g' : G) (Z : Analyzer K) (base : PyM (Base K)) (unit : K)
    (hbase : ReadFrames E P S (cellFrames F sy C V s) (cellUniverse F sy C V s) base unit)
    (h : diffusionAnalyzer sq o g U base = .ok (Z, g')) :
    ∃ taus : List ℕ, 1 ∈ taus ∧ taus.Pairwise (· < ·) ∧ (∀ τ ∈ taus, 1 ≤ τ ∧ τ ≤ F) ∧
      ((F : ℤ) ≤ P.nSteps → taus = (List.range F).map fun i => i + 1) ∧ Z.volume = some (V 0) ∧
      Z.diff.n = (List.range taus.length).map (fromStart (axesOf U.dimension) unitCell x fw atoms) ∧
      Z.diff.dt = taus.map fun τ : ℕ => (τ : K) * P.stepSkip.val * P.timeStep.val / unit := by
  obtain ⟨B, hB, rfl, hm⟩ := diffusion_inv h
  obtain ⟨f0, rest, hw, hlen, hv, hf⟩ := cell_follows (E := E) (V := V) hS hF hs
  rw [hw] at hbase
  obtain ⟨taus, t1, t2, t3, t4, ht⟩ := single_frames hP h2 hF hlen hf (fun fr h => (cellUniverse_frames h).trans hw) hbase hB
  rw [hv] at ht
  exact ⟨taus, t1, t3, t2, t4, ht.volume, msd_of_single ht h2 hblock hsub hm⟩

theorem fromStart_zero (A : Finset (Fin 3)) (L : M3 K) (u : ℕ → ℕ → V3 K) (fw atoms : List ℕ) : fromStart A L u fw atoms 0 = 0 := by
  have : ∀ i, lengthSq A (trueMove L u fw i 0 0) = 0 := by
    intro i
    unfold lengthSq trueMove
    simp [meanOver_zero]
  unfold fromStart
  simp [this]

/-- **C110, the first value.** For every trajectory, however the atoms move, the first MSD of the report is zero; and with as many
intervals as frames (the default for up to 100 frames) every value is the one that belongs to the time before it. -/
theorem C110_one_frame_late (E : Num K) (P : Params K) (S : Select K) (sy : List String) (atoms fw : List ℕ) (hS : Picks S sy atoms fw)
    (h2 : 2 ≤ atoms.length) (hP : SingleGrid E P) (F : ℕ) (hF : 2 ≤ F) (C : ℕ → M3 K) (V : ℕ → K) (s x : ℕ → ℕ → V3 K)
    (hs : StoredIn F sy.length C s x) (sq : K → K) (o : Oracle K G) (U : UncParams K) (hblock : U.opt.block = false) (hsub : U.sub = 1)
    (g g' : G) (Z : Analyzer K) (base : PyM (Base K)) (unit : K)
    (hbase : ReadFrames E P S (cellFrames F sy C V s) (cellUniverse F sy C V s) base unit)
    (h : diffusionAnalyzer sq o g U base = .ok (Z, g')) :
    Z.diff.n[0]? = some 0 ∧ Z.diff.dt[0]? = some (P.stepSkip.val * P.timeStep.val / unit) ∧
      ((F : ℤ) ≤ P.nSteps → Z.diff.n.length = F ∧ ∀ i < F, Z.diff.n[i]? = some (fromStart (axesOf U.dimension) unitCell x fw atoms i) ∧
        Z.diff.dt[i]? = some (((i + 1 : ℕ) : K) * P.stepSkip.val * P.timeStep.val / unit)) := by
  obtain ⟨taus, t1, t2, t3, t4, -, hn, hdt⟩ := C110_msd_partial E P S sy atoms fw hS h2 hP F hF C V s x hs sq o U hblock hsub g g' Z base unit
    hbase h
  have hlen : 0 < taus.length := List.length_pos_of_mem t1
  have h0 : taus[0]? = some 1 := by
    cases taus with
    | nil => simp at t1
    | cons a l =>
      rw [List.pairwise_cons] at t2
      rcases List.mem_cons.1 t1 with rfl | hm
      · rfl
      · have := t2.1 1 hm
        have := (t3 a (by simp)).1
        omega
  refine ⟨?_, ?_, fun hN => ?_⟩
  · rw [hn, List.getElem?_map, List.getElem?_range hlen]
    simp [fromStart_zero]
  · rw [hdt, List.getElem?_map, h0]
    simp
  · have ht := t4 hN
    have hl : taus.length = F := by rw [ht]; simp
    refine ⟨by rw [hn]; simp [hl], fun i hi => ⟨?_, ?_⟩⟩
    · rw [hn, List.getElem?_map, List.getElem?_range (by omega)]
      rfl
    · rw [hdt, ht, List.map_map, List.getElem?_map, List.getElem?_range hi]
      simp

/-- The variances that `MSDBootstrap` reports. -/
theorem reported_variance {sq : K → K} {o : Oracle K G} {U : UncParams K} (hblock : U.opt.block = false) (hsub : U.sub = 1) {B : Base K}
    (hno : ∀ y ∈ B.nO, 0 < y) {g g' : G} {b : Boot K}
    (h : msdBootstrap sq o U.opt g B.deltaT B.disp3d B.nO U.sub U.dimension = .ok (b, g')) :
    b.v.length = b.n.length ∧ ∀ i < b.n.length, ∃ a no, B.disp3d[i]? = some a ∧ B.nO[i]? = some no ∧
      b.v[i]? = some (some (varOn (pairs a) (sqLen (axesOf U.dimension) a) / no)) := by
  obtain ⟨b0, P, hb0, hP, hrec, -⟩ := msdBootstrap_inv h
  obtain ⟨ds, dts, sel, d0, h1, h2, h3, h4, rfl⟩ := bootInit_inv hb0
  rw [hsub, pyStride_one] at h1
  obtain rfl := Except.ok.inj h1
  obtain ⟨hn, hA, -⟩ := dimensionSlice_axes h3
  refine ⟨by rw [hrec.lv, hrec.ln], ?_⟩
  intro i hi
  rw [hrec.ln] at hi
  obtain ⟨a, l, m, w, t, e1, e2, e3, e4, e5, e6, e7, -⟩ := hrec.entry i hi
  obtain rfl := Except.ok.inj e2
  dsimp only at e1 e3 e4
  rw [dSquared_length] at e3
  unfold Estimate at e4
  rw [hblock] at e4
  obtain ⟨no, f1, f2, f3⟩ := e4
  have hpos := hno no (List.mem_of_getElem? f1)
  rw [npVar1_dSquared hn a e3, hA] at f3
  simp only [msdQuantity, npDiv, Option.bind_some, if_neg hpos.ne'] at f3
  subst f3
  exact ⟨a, no, e1, f1, e7⟩

/-- **C110, the variances.** The reported variance is the variance of the squared displacements over the atoms divided by
`atoms × last interval / interval`, although there is one observation per atom: below the variance of the mean by the factor
`interval / last interval`. -/
theorem C110_variance (E : Num K) (P : Params K) (S : Select K) (sy : List String) (atoms fw : List ℕ) (hS : Picks S sy atoms fw)
    (h2 : 2 ≤ atoms.length) (hP : SingleGrid E P) (F : ℕ) (hF : 2 ≤ F) (C : ℕ → M3 K) (V : ℕ → K) (s x : ℕ → ℕ → V3 K)
    (hs : StoredIn F sy.length C s x) (sq : K → K) (o : Oracle K G) (U : UncParams K) (hblock : U.opt.block = false)
    (hsub : U.sub = 1) (g g' : G) (Z : Analyzer K) (base : PyM (Base K)) (unit : K)
    (hbase : ReadFrames E P S (cellFrames F sy C V s) (cellUniverse F sy C V s) base unit)
    (h : diffusionAnalyzer sq o g U base = .ok (Z, g')) :
    ∃ (taus : List ℕ) (last : ℕ), last ∈ taus ∧ (∀ τ ∈ taus, 1 ≤ τ ∧ τ ≤ last ∧ last ≤ F) ∧
      ((F : ℤ) ≤ P.nSteps → taus = (List.range F).map fun i => i + 1) ∧ Z.diff.v.length = taus.length ∧
      ∀ i τ : ℕ, taus[i]? = some τ → Z.diff.v[i]? =
        some (some (spreadFromStart (axesOf U.dimension) unitCell x fw atoms i / (atoms.length : K) * ((τ : K) / (last : K)))) := by
  obtain ⟨B, hB, rfl, hm⟩ := diffusion_inv h
  obtain ⟨f0, rest, hw, hlen, hv, hf⟩ := cell_follows (E := E) (V := V) hS hF hs
  rw [hw] at hbase
  obtain ⟨taus, t1, t2, t3, t4, ht⟩ := single_frames hP h2 hF hlen hf (fun fr h => (cellUniverse_frames h).trans hw) hbase hB
  have hlast : taus.getLastD 0 ∈ taus ∧ ∀ τ ∈ taus, τ ≤ taus.getLastD 0 := by
    cases taus using List.reverseRecOn with
    | nil => simp at t1
    | append_singleton l a =>
      rw [List.pairwise_append] at t3
      have e : (l ++ [a]).getLastD 0 = a := by simp
      rw [e]
      refine ⟨by simp, fun τ hτ => ?_⟩
      rcases List.mem_append.1 hτ with hl | hl
      · exact (t3.2.2 τ hl a (by simp)).le
      · rw [List.mem_singleton.1 hl]
  have hl0 : 0 < taus.getLastD 0 := (t2 _ hlast.1).1
  have hN : (0 : K) < atoms.length := by exact_mod_cast (by omega : 0 < atoms.length)
  have hno : ∀ y ∈ Z.toBase.nO, 0 < y := by
    intro y hy
    rw [ht.nO] at hy
    obtain ⟨τ, hτ, rfl⟩ := List.mem_map.1 hy
    have h1 : (0 : K) < τ := by exact_mod_cast (t2 τ hτ).1
    have h3 : (0 : K) < ((atoms.length * taus.getLastD 0 : ℕ) : K) := by
      exact_mod_cast Nat.mul_pos (by omega) hl0
    exact div_pos h3 h1
  obtain ⟨v1, hvar⟩ := reported_variance hblock hsub hno hm
  have hn := (msd_of_single ht h2 hblock hsub hm).1
  have hnl : Z.diff.n.length = taus.length := by rw [hn]; simp
  refine ⟨taus, _, hlast.1, fun τ hτ => ⟨(t2 τ hτ).1, hlast.2 τ hτ, (t2 _ hlast.1).2⟩, t4, by omega, ?_⟩
  intro i τ hτ
  have hi : i < taus.length := by
    by_contra hc
    rw [List.getElem?_eq_none (by omega)] at hτ
    cases hτ
  obtain ⟨a, no, k1, k2, k3⟩ := hvar i (by omega)
  obtain ⟨f0, f1, f2⟩ := ht.moves i a k1
  rw [ht.nO, List.getElem?_map, hτ] at k2
  have hno' := (Option.some.inj k2).symm
  rw [k3, single_var f0 f1 f2, hno']
  congr 2
  have hτ0 : (0 : K) < τ := by exact_mod_cast (t2 τ (List.mem_of_getElem? hτ)).1
  have hlk : (0 : K) < (taus.getLastD 0 : ℕ) := by exact_mod_cast hl0
  push_cast
  field_simp

theorem mstd_of_single {L : M3 K} {V : K} {u : ℕ → ℕ → V3 K} {fw atoms : List ℕ} {t : ℕ → K} {taus : List ℕ} {B : Base K}
    (hB : SingleBase L V u fw atoms t taus B) {sq : K → K} {o : Oracle K G} {U : UncParams K} (hsub : U.sub = 1) {g g' : G} {b : Boot K}
    (h : mstdBootstrap sq o U.opt g B.deltaT B.disp3d B.nO U.sub U.dimension = .ok (b, g')) : b.n = [] ∧ b.dt = [] := by
  obtain ⟨b0, P, hb0, hP, hrec, -⟩ := mstdBootstrap_inv h
  obtain ⟨ds, dts, sel, d0, h1, h3, h4, h5, rfl⟩ := bootInit_inv hb0
  rw [hsub, pyStride_one] at h1
  obtain rfl := Except.ok.inj h1
  have hP0 : P = 0 := by
    by_contra hne
    obtain ⟨a, l, m, w, t', e1, e2, e3, -⟩ := hrec.entry 0 (by omega)
    obtain rfl := Except.ok.inj e2
    rw [collMotion_length] at e3
    have := (hB.moves 0 a e1).2.1
    omega
  subst hP0
  exact ⟨List.eq_nil_of_length_eq_zero hrec.ln, List.eq_nil_of_length_eq_zero hrec.ldt⟩

theorem mscd_of_single {L : M3 K} {V : K} {u : ℕ → ℕ → V3 K} {fw atoms : List ℕ} {t : ℕ → K} {taus : List ℕ} {B : Base K}
    (hB : SingleBase L V u fw atoms t taus B) {charge : Charge K} (hq : ∀ l, charge = .array l → l.length = atoms.length)
    {sq : K → K} {o : Oracle K G} {U : UncParams K} (hsub : U.sub = 1) {g g' : G} {b : Boot K}
    (h : mscdBootstrap sq o U.opt g B.deltaT B.disp3d charge B.nO U.sub U.dimension = .ok (b, g')) : b.n = [] ∧ b.dt = [] := by
  obtain ⟨b0, P, hb0, hP, hrec, -⟩ := mscdBootstrap_inv h
  obtain ⟨ds, dts, sel, d0, h1, h3, h4, h5, rfl⟩ := bootInit_inv hb0
  rw [hsub, pyStride_one] at h1
  obtain rfl := Except.ok.inj h1
  have hP0 : P = 0 := by
    by_contra hne
    obtain ⟨a, l, m, w, t', e1, e2, e3, -⟩ := hrec.entry 0 (by omega)
    dsimp only at e1 e2
    obtain ⟨a0, a1, -⟩ := hB.moves 0 a e1
    have hhead : (B.disp3d.map Arr3.n0).headD 0 = atoms.length := by
      cases hd : B.disp3d with
      | nil => rw [hd] at e1; cases e1
      | cons d1 rest =>
        rw [hd] at e1
        obtain rfl := Option.some.inj e1
        exact a0
    rw [hhead] at e2
    have hlen : (charge.expand atoms.length).length = atoms.length := by
      cases charge with
      | scalar q => simp [Charge.expand]
      | array l => exact hq l rfl
    have e2' : (mscdQuantity (charge.expand atoms.length)).sample a = _ := chgMotion_eq (by rw [hlen, a0])
    rw [e2'] at e2
    obtain rfl := Except.ok.inj e2
    simp at e3
    omega
  subst hP0
  exact ⟨List.eq_nil_of_length_eq_zero hrec.ln, List.eq_nil_of_length_eq_zero hrec.ldt⟩

/-- **C110, MSTD and MSCD.** With displacements from the first frame only there is one collective displacement per interval, and intervals
with one value are left out: both curves are empty for every trajectory. -/
theorem C110_collective_empty (E : Num K) (P : Params K) (S : Select K) (sy : List String) (atoms fw : List ℕ) (hS : Picks S sy atoms fw)
    (h2 : 2 ≤ atoms.length) (hP : SingleGrid E P) (F : ℕ) (hF : 2 ≤ F) (C : ℕ → M3 K) (V : ℕ → K) (s x : ℕ → ℕ → V3 K)
    (hs : StoredIn F sy.length C s x) (sq : K → K) (o : Oracle K G) (U : UncParams K) (hsub : U.sub = 1)
    (base : PyM (Base K)) (unit : K) (hbase : ReadFrames E P S (cellFrames F sy C V s) (cellUniverse F sy C V s) base unit) :
    (∀ g g' Z, jumpAnalyzer sq o g U base = .ok (Z, g') → Z.diff.n = [] ∧ Z.diff.dt = []) ∧
    ∀ (charge : Charge K) (hq : ∀ l, charge = .array l → l.length = atoms.length) g g' Z,
      conductivityAnalyzer sq o g U charge base = .ok (Z, g') → Z.diff.n = [] ∧ Z.diff.dt = [] := by
  obtain ⟨f0, rest, hw, hlen, hv, hf⟩ := cell_follows (E := E) (V := V) hS hF hs
  rw [hw] at hbase
  constructor
  · intro g g' Z h
    obtain ⟨B, hB, rfl, hm⟩ := jump_inv h
    obtain ⟨taus, -, -, -, -, ht⟩ := single_frames hP h2 hF hlen hf (fun fr h => (cellUniverse_frames h).trans hw) hbase hB
    exact mstd_of_single ht hsub hm
  · intro charge hq g g' Z h
    obtain ⟨B, hB, rfl, hm⟩ := conductivity_inv h
    obtain ⟨taus, -, -, -, -, ht⟩ := single_frames hP h2 hF hlen hf (fun fr h => (cellUniverse_frames h).trans hw) hbase hB
    exact mscd_of_single ht hq hsub hm

/-- With displacements from the first frame only and at most one selected atom, every interval is left out. -/
theorem getDisps_one_atom {fl : K → K} {giga : K} {itemsize : ℕ} {ts ss : PyNum K} {idx : List ℤ} (h1 : idx.length ≤ 1) {mem : K} {iv : List ℤ}
    {dc : Arr3 K} {out : DispsOut K} (h : getDisps fl giga itemsize ts ss idx "single-origin" mem iv dc = .ok out) : out.disp3d = [] := by
  unfold getDisps at h
  cases hc : checkRows iv idx dc.n0 with
  | error e => rw [hc] at h; cases h
  | ok rows =>
  rw [hc] at h
  simp only [bind, Except.bind] at h
  by_cases hm0 : mem < fl (((iv.map fun τ => intervalBytes itemsize idx.length dc.n1 τ).sum : ℕ) * giga)
  · rw [if_pos hm0] at h; cases h
  rw [if_neg hm0] at h
  cases hm : iv.zipIdx.mapM (oneInterval fl idx "single-origin" (iv.getLastD 0) dc) with
  | error e => rw [hm] at h; cases h
  | ok r =>
  rw [hm] at h
  rw [← Except.ok.inj h]
  have hr : ∀ x ∈ r, x = none := by
    intro x hx
    obtain ⟨k, hk, rfl⟩ := List.getElem_of_mem hx
    obtain ⟨hl, hall⟩ := mapM_except_inv hm
    have hp := hall k (by omega) hk
    generalize iv.zipIdx[k]'(by omega) = p at hp
    unfold oneInterval at hp
    cases hi : idx.mapM (npIdx dc.n0) with
    | error e => rw [hi] at hp; cases hp
    | ok rws =>
    rw [hi] at hp
    simp only [bind, Except.bind, ↓reduceIte] at hp
    by_cases h0 : p.1 = 0
    · rw [if_pos h0] at hp; cases hp
    rw [if_neg h0, if_pos] at hp
    · exact (Except.ok.inj hp).symm
    have hl : rws.length ≤ 1 := by rw [(mapM_except_inv hi).1]; exact h1
    have hn1 : (singleOrigin dc rws p.2).n1 ≤ 1 := by
      simp only [singleOrigin, sliceBound]
      split_ifs <;> omega
    have hs : strideCount (singleOrigin dc rws p.2).n1 p.1 ≤ 1 := by
      have hpos : 0 < p.1.natAbs := Int.natAbs_pos.2 h0
      unfold strideCount
      rw [← Nat.lt_succ_iff, Nat.div_lt_iff_lt_mul hpos]
      omega
    exact (Nat.mul_le_mul (show (singleOrigin dc rws p.2).n0 ≤ 1 from hl) hs).trans (by norm_num)
  simp only [List.map_eq_nil_iff, List.filterMap_eq_nil_iff]
  intro a ha
  simpa using hr a ha

/-- **C110, one atom.** With displacements from the first frame only and one selected atom no interval has more than one displacement, so none
is kept; the trajectory is read without complaint, and none of the three observables can be computed. -/
theorem C110_one_atom (E : Num K) (P : Params K) (S : Select K) (sy : List String) (atoms fw : List ℕ) (hS : Picks S sy atoms fw)
    (h1 : atoms.length ≤ 1) (hfl : E.fl = id) (hsm : P.sampling = "single-origin") (F : ℕ) (hF : 2 ≤ F) (C : ℕ → M3 K) (V : ℕ → K)
    (s x : ℕ → ℕ → V3 K) (hs : StoredIn F sy.length C s x) (sq : K → K) (o : Oracle K G) (U : UncParams K)
    (base : PyM (Base K)) (unit : K) (hbase : ReadFrames E P S (cellFrames F sy C V s) (cellUniverse F sy C V s) base unit) (g : G) :
    (∀ out, diffusionAnalyzer sq o g U base ≠ .ok out) ∧ (∀ out, jumpAnalyzer sq o g U base ≠ .ok out) ∧
      ∀ charge out, conductivityAnalyzer sq o g U charge base ≠ .ok out := by
  obtain ⟨f0, rest, hw, hlen, hv, hf⟩ := cell_follows (E := E) (V := V) hS hF hs
  rw [hw] at hbase
  have hnil : ∀ B, base = .ok B → B.disp3d = [] := by
    intro B hB
    obtain ⟨ss, r, hss, hb, b1, b2, b3, b4⟩ := readFrames_inv hfl (fun fr h => (cellUniverse_frames h).trans hw) hbase hB
    obtain ⟨coords, sel, n, p, c1, c2, c3, c4, c5, c6, c7, c8, c9, c10, c11, c12⟩ := buildParser_dc hb
    obtain ⟨coords', sel', w', disp', r0, hsel', hdisp', hinit, hr⟩ := buildParser_inv hb
    obtain ⟨-, hti, hgd, hidx, -, -⟩ := parserInit_inv hinit
    have hsel : sel'.indices = sel.indices := by rw [← c7, hr, ← hidx]
    have h30 : r0.disp3d = r.disp3d := by rw [hr]
    obtain ⟨s1, s2, s3⟩ := hf coords sel c1
    dsimp only at hgd
    rw [hsm, hsel, s1] at hgd
    rw [b1, ← h30]
    exact getDisps_one_atom (by simpa using h1) hgd
  have hboot : ∀ B, base = .ok B → ∀ b, bootInit B.deltaT B.disp3d B.nO U.sub U.dimension ≠ .ok b := by
    intro B hB b hb
    obtain ⟨ds, dts, sel, d0, e1, -, -, e4, -⟩ := bootInit_inv hb
    rw [hnil B hB] at e1
    have hds : ds = [] := by
      unfold pyStride at e1
      split_ifs at e1
      · rw [← Except.ok.inj e1]; simp [stride]
      · rw [← Except.ok.inj e1]; simp [stride]
    rw [hds] at e4
    cases e4
  refine ⟨?_, ?_, ?_⟩
  · rintro ⟨Z, g'⟩ h
    obtain ⟨B, hB, -, hm⟩ := diffusion_inv h
    unfold msdBootstrap at hm
    cases hb : bootInit B.deltaT B.disp3d B.nO U.sub U.dimension with
    | error e => rw [hb] at hm; cases hm
    | ok b => exact hboot B hB b hb
  · rintro ⟨Z, g'⟩ h
    obtain ⟨B, hB, -, hm⟩ := jump_inv h
    unfold mstdBootstrap at hm
    cases hb : bootInit B.deltaT B.disp3d B.nO U.sub U.dimension with
    | error e => rw [hb] at hm; cases hm
    | ok b => exact hboot B hB b hb
  · rintro charge ⟨Z, g'⟩ h
    obtain ⟨B, hB, -, hm⟩ := conductivity_inv h
    unfold mscdBootstrap at hm
    cases hb : bootInit B.deltaT B.disp3d B.nO U.sub U.dimension with
    | error e => rw [hb] at hm; cases hm
    | ok b => exact hboot B hB b hb

/-! ## Examples -/

/-- The parameters of the examples, with displacements from the first frame. -/
def exParamsS : Params ℚ := { exParams with sampling := "single-origin" }

theorem exSingle : SingleGrid exNum exParamsS := ⟨rfl, by decide +kernel, rfl, rfl, rfl, rfl, by decide +kernel⟩

/-- The frames of the trajectory with the changing cell (`exStored`). -/
def exCells : List (Frame ℚ) := cellFrames 4 ["Li", "O", "Li"] (fun j => boxOf fun _ => exEdge j) (fun j => exEdge j ^ 3) exPathS

/-- **C110 is violated.** In this trajectory the atoms move between the first two frames, and the MSD reported for the time of one frame is
zero. -/
theorem C110_violated : ∃ Z, diffusionAnalyzer id (exOracle ℚ) () exUnc (fromAse exNum exParamsS exSelect 1 none (.one exCells)) = .ok (Z, ()) ∧
    Z.diff.dt[0]? = some 6 ∧ Z.diff.n[0]? = some 0 ∧ fromStart (axesOf exUnc.dimension) unitCell exPathX [1] [0, 2] 1 ≠ 0 ∧
    ∃ Z', jumpAnalyzer id (exOracle ℚ) () exUnc (fromAse exNum exParamsS exSelect 1 none (.one exCells)) = .ok (Z', ()) ∧ Z'.diff.n = [] := by
  obtain ⟨⟨Z, g⟩, h⟩ := ok_of_isSome (x := diffusionAnalyzer id (exOracle ℚ) () exUnc (fromAse exNum exParamsS exSelect 1 none
    (.one exCells))) (by decide +kernel)
  obtain ⟨⟨Z', g'⟩, h'⟩ := ok_of_isSome (x := jumpAnalyzer id (exOracle ℚ) () exUnc (fromAse exNum exParamsS exSelect 1 none
    (.one exCells))) (by decide +kernel)
  obtain ⟨a, b, -⟩ := C110_one_frame_late exNum exParamsS exSelect ["Li", "O", "Li"] _ _ exPicks (by decide) exSingle 4 (by decide) _
    (fun j => exEdge j ^ 3) _ _ exStored id (exOracle ℚ) exUnc rfl rfl () () Z _ 1 (.inl ⟨rfl, rfl⟩) h
  have hc := (C110_collective_empty exNum exParamsS exSelect ["Li", "O", "Li"] _ _ exPicks (by decide) exSingle 4 (by decide) _
    (fun j => exEdge j ^ 3) _ _ exStored id (exOracle ℚ) exUnc rfl _ 1 (.inl ⟨rfl, rfl⟩)).1 () () Z' h'
  refine ⟨Z, h, ?_, a, by decide +kernel, Z', h', hc.1⟩
  rw [b]
  decide +kernel

/-- `C110_msd_partial` for this trajectory as an MDAnalysis universe, and the values. -/
example : ∃ Z, diffusionAnalyzer id (exOracle ℚ) () exUnc (fromUniverse exNum exParamsS exSelect 1 1 none
      (.one (cellUniverse 4 ["Li", "O", "Li"] (fun j => boxOf fun _ => exEdge j) (fun j => exEdge j ^ 3) exPathS))) = .ok (Z, ()) ∧
    Z.diff.n = (List.range 4).map (fromStart (axesOf exUnc.dimension) unitCell exPathX [1] [0, 2]) ∧ Z.diff.dt = [6, 12, 18, 24] ∧
    Z.diff.n.length = 4 := by
  obtain ⟨⟨Z, g⟩, h⟩ := ok_of_isSome (x := diffusionAnalyzer id (exOracle ℚ) () exUnc (fromUniverse exNum exParamsS exSelect 1 1 none
      (.one (cellUniverse 4 ["Li", "O", "Li"] (fun j => boxOf fun _ => exEdge j) (fun j => exEdge j ^ 3) exPathS)))) (by decide +kernel)
  obtain ⟨taus, -, -, -, ht, -, hn, hdt⟩ := C110_msd_partial exNum exParamsS exSelect ["Li", "O", "Li"] _ _ exPicks (by decide) exSingle 4 (by decide) _
    (fun j => exEdge j ^ 3) _ _ exStored id (exOracle ℚ) exUnc rfl rfl () () Z _ 1 (.inr (.inr ⟨rfl, rfl⟩)) h
  rw [ht (by decide +kernel)] at hn hdt
  refine ⟨Z, h, ?_, ?_, by rw [hn]; simp⟩
  · rw [hn]; simp
  · rw [hdt]; decide +kernel

/-- `C110_one_atom` for the one oxygen atom of this trajectory, which is read. -/
example : (fromAse exNum exParamsS { exSelect with specie := some ["O"] } 1 none (.one exCells)).toOption.isSome = true ∧
    (∀ out, diffusionAnalyzer id (exOracle ℚ) () exUnc (fromAse exNum exParamsS { exSelect with specie := some ["O"] } 1 none
      (.one exCells)) ≠ .ok out) ∧
    (diffusionAnalyzer id (exOracle ℚ) () exUnc (fromAse exNum exParams { exSelect with specie := some ["O"] } 1 none
      (.one exCells))).toOption.isSome = true :=
  ⟨by decide +kernel, (C110_one_atom exNum exParamsS { exSelect with specie := some ["O"] } ["Li", "O", "Li"] [1] [0, 2] (.species ["O"] rfl rfl)
    (by decide) rfl rfl 4 (by decide) _ (fun j => exEdge j ^ 3) _ _ exStored id (exOracle ℚ) exUnc _ 1 (.inl ⟨rfl, rfl⟩) ()).1,
    by decide +kernel⟩

/-- `C110_variance` for this trajectory: the variance reported for the third of four intervals is three quarters of that of the mean, and not zero. -/
example : ∃ Z, diffusionAnalyzer id (exOracle ℚ) () exUnc (fromAse exNum exParamsS exSelect 1 none (.one exCells)) = .ok (Z, ()) ∧
    Z.diff.v[2]? = some (some (spreadFromStart (axesOf exUnc.dimension) unitCell exPathX [1] [0, 2] 2 / 2 * (3 / 4))) ∧
    spreadFromStart (axesOf exUnc.dimension) unitCell exPathX [1] [0, 2] 2 ≠ 0 := by
  obtain ⟨⟨Z, g⟩, h⟩ := ok_of_isSome (x := diffusionAnalyzer id (exOracle ℚ) () exUnc (fromAse exNum exParamsS exSelect 1 none
    (.one exCells))) (by decide +kernel)
  obtain ⟨taus, last, h1, h2, h3, -, hv⟩ := C110_variance exNum exParamsS exSelect ["Li", "O", "Li"] _ _ exPicks (by decide) exSingle 4 (by decide) _
    (fun j => exEdge j ^ 3) _ _ exStored id (exOracle ℚ) exUnc rfl rfl () () Z _ 1 (.inl ⟨rfl, rfl⟩) h
  have ht := h3 (by decide +kernel)
  subst ht
  have hl : last = 4 := le_antisymm (h2 1 (by decide)).2.2 (h2 4 (by decide)).2.1
  have := hv 2 3 (by decide)
  refine ⟨Z, h, ?_, by decide +kernel⟩
  rw [this, hl]
  norm_num

/-- The mean squared displacements from the first frame in this trajectory. -/
example : (List.range 4).map (fromStart (axesOf exUnc.dimension) unitCell exPathX [1] [0, 2]) = [0, 1 / 4, 9 / 2, (5 : ℚ)] := by
  decide +kernel

end Kinisi
