import Verif.Lemmas.EndToEnd
import Verif.Props.Analyzer

/-!
# C70: from a wrapped trajectory to the reported MSD
-/

set_option linter.unusedSectionVars false
set_option linter.unusedVariables false

namespace Kinisi
open Spec
variable {K : Type} [Field K] [LinearOrder K] [IsStrictOrderedRing K] [FloorRing K] {G : Type}

/-- A trajectory of `F` frames in the fixed cell `L`: atom `i` has the true fractional path `u i`, and the file stores it in frame
`j` shifted by the integers `m i j`. -/
def wrapped (F : ℕ) (symbols : List String) (L : M3 K) (volume : K) (u : ℕ → ℕ → V3 K) (m : ℕ → ℕ → Fin 3 → ℤ) : List (Frame K) :=
  (List.range F).map fun j =>
    ⟨symbols, (List.range symbols.length).map fun i => fun k => u i j k + (m i j k : K), L, volume⟩

/-- The atoms and the framework that the arguments name: by species, with the other atoms as framework unless it is given, or by
atom number. -/
inductive Picks (S : Select K) (symbols : List String) : List ℕ → List ℕ → Prop
  | species (sp : List String) (hs : S.specie = some sp) (hf : S.framework = none) :
      Picks S symbols (chosen symbols sp) (others symbols sp)
  | framework (sp : List String) (fw : List ℕ) (isTuple : Bool) (hs : S.specie = some sp)
      (hf : S.framework = some ⟨isTuple, fw.map fun k : ℕ => (k : ℤ)⟩) (hm : ∀ k ∈ fw, k < symbols.length) :
      Picks S symbols (chosen symbols sp) fw
  | numbers (atoms : List ℕ) (isTuple : Bool) (hs : S.specie = none)
      (hi : S.specieIdx = .flat ⟨isTuple, atoms.map fun k : ℕ => (k : ℤ)⟩) (hf : S.framework = none)
      (hm : ∀ k ∈ atoms, k < symbols.length) :
      Picks S symbols atoms ((List.range symbols.length).filter fun k => !atoms.contains k)

theorem picks_mem {S : Select K} {sy : List String} {atoms fw : List ℕ} (h : Picks S sy atoms fw) :
    (∀ k ∈ atoms, k < sy.length) ∧ ∀ k ∈ fw, k < sy.length := by
  cases h with
  | species sp hs hf => exact ⟨fun k hk => mem_chosen hk, fun k hk => mem_others hk⟩
  | framework sp _ t hs hf hm => exact ⟨fun k hk => mem_chosen hk, hm⟩
  | numbers _ t hs hi hf hm => exact ⟨hm, fun k hk => by simpa using (List.mem_filter.mp hk).1⟩

theorem picks_select {tr : Trig K} {S : Select K} {sy : List String} {atoms fw : List ℕ} (hp : Picks S sy atoms fw)
    {coords c : List (List (V3 K))} {sel : Selection} (h : selectAtoms tr sy coords S = .ok (c, sel)) :
    c = coords ∧ sel.indices = atoms.map (fun k : ℕ => (k : ℤ)) ∧ sel.drift.vals = fw.map fun k : ℕ => (k : ℤ) := by
  unfold selectAtoms at h
  cases hp with
  | species sp hs hf =>
    rw [hs] at h
    dsimp only at h
    rw [hf] at h
    cases hg : getIndices sy sp none with
    | error e => rw [hg] at h; cases h
    | ok s =>
      rw [hg] at h
      simp only [bind, Except.bind, Except.ok.injEq, Prod.mk.injEq] at h
      obtain ⟨rfl, rfl⟩ := h
      exact ⟨rfl, getIndices_chosen hg⟩
  | framework sp _ t hs hf hm =>
    rw [hs] at h
    dsimp only at h
    rw [hf] at h
    unfold getIndices at h
    simp only [positions_eq] at h
    split_ifs at h
    · cases h
    · simp only [bind, Except.bind, Except.ok.injEq, Prod.mk.injEq] at h
      obtain ⟨rfl, rfl⟩ := h
      exact ⟨rfl, rfl, rfl⟩
  | numbers _ t hs hi hf hm =>
    rw [hs, hi] at h
    dsimp only at h
    rw [hf] at h
    split_ifs at h
    unfold getFramework at h
    simp only [bind, Except.bind, Except.ok.injEq, Prod.mk.injEq] at h
    obtain ⟨rfl, rfl⟩ := h
    refine ⟨rfl, rfl, ?_⟩
    dsimp only
    rw [List.filter_map]
    congr 1
    apply List.filter_congr
    intro k _
    simp

/-- The default parameters of the parsers that matter here. -/
def DefaultGrid (E : Num K) (P : Params K) : Prop :=
  E.fl = id ∧ 0 < P.stepSkip.val * P.timeStep.val ∧ P.minDt = none ∧ P.maxDt = none ∧ P.spacing = "linear" ∧
    P.sampling = "multi-origin"

/-- The object `B` holds a trajectory as it truly moved: `taus` are the intervals in frames, `t` their length in time. -/
structure TrueBase (L : M3 K) (V : K) (u : ℕ → ℕ → V3 K) (fw atoms : List ℕ) (F : ℕ) (nSteps : ℤ) (t : ℕ → K) (taus : List ℕ)
    (B : Base K) : Prop where
  sorted : taus.Pairwise (· < ·)
  range : ∀ τ ∈ taus, 1 ≤ τ ∧ τ ≤ F
  full : (F : ℤ) ≤ nSteps → taus = (List.range F).map fun i => i + 1
  volume : B.volume = some V
  deltaT : B.deltaT = taus.map t
  windows : List.Forall₂ (TrueWindows L u fw atoms F) (resolved atoms.length F taus) B.disp3d

/-- The same for any list of intervals. -/
structure PathBase (L : M3 K) (V : K) (u : ℕ → ℕ → V3 K) (fw atoms : List ℕ) (F : ℕ) (t : ℕ → K) (taus : List ℕ) (B : Base K) : Prop where
  range : ∀ τ ∈ taus, 1 ≤ τ ∧ τ ≤ F
  volume : B.volume = some V
  deltaT : B.deltaT = taus.map t
  windows : List.Forall₂ (TrueWindows L u fw atoms F) (resolved atoms.length F taus) B.disp3d

theorem TrueBase.toPath {L : M3 K} {V : K} {u : ℕ → ℕ → V3 K} {fw atoms : List ℕ} {F : ℕ} {nSteps : ℤ} {t : ℕ → K} {taus : List ℕ}
    {B : Base K} (h : TrueBase L V u fw atoms F nSteps t taus B) : PathBase L V u fw atoms F t taus B :=
  ⟨h.range, h.volume, h.deltaT, h.windows⟩

/-- What a parser makes of any trajectory whose unwrapped path, after the selection, is that of `u` in the cell `L`. -/
theorem build_any {E : Num K} {P : Params K} {S : Select K} {atoms fw : List ℕ} (hfl : E.fl = id) (hsm : P.sampling = "multi-origin") {F : ℕ} {L : M3 K}
    {u : ℕ → ℕ → V3 K} {f0 : Frame K} {rest : List (Frame K)} (hlen : rest.length + 1 = F)
    (hone : ∀ l, initTimeIntervals id E.geo F P.timeStep P.stepSkip P.minDt P.maxDt P.nSteps P.spacing = .ok l → ∀ τ ∈ l, 1 ≤ τ) {coords : List (List (V3 K))} {sel : Selection}
    (hsel : selectAtoms E.trig f0.symbols (f0.frac :: rest.map Frame.frac) S = .ok (coords, sel))
    (hci : sel.indices = atoms.map fun k : ℕ => (k : ℤ)) (hcd : sel.drift.vals = fw.map fun k : ℕ => (k : ℤ))
    (hpath : ∀ n p, (∀ c ∈ coords, c.length = n) → coords.length = F → (∀ C ∈ f0.latt :: rest.map Frame.latt, NonSingular C) →
      IsPath F n (fun j => (f0.latt :: rest.map Frame.latt).getD j 0) (fun j i => (coords.getD j []).getD i 0) p →
      (∀ a ∈ fw, a < n) ∧ (∀ a ∈ atoms, a < n) ∧ ∀ i < n, ∀ j < F, ∀ l, p i j l = cart L (u i j) l - cart L (u i 0) l) {r : Parsed K}
    (h : buildParser E P S f0 (f0.frac :: f0.frac :: rest.map Frame.frac) (f0.latt :: f0.latt :: rest.map Frame.latt) = .ok r) :
    ∃ taus : List ℕ, initTimeIntervals id E.geo F P.timeStep P.stepSkip P.minDt P.maxDt P.nSteps P.spacing =
        .ok (taus.map fun τ : ℕ => (τ : ℤ)) ∧ r.intervals = taus.map (fun τ : ℕ => (τ : ℤ)) ∧
      PathBase L f0.volume u fw atoms F (fun τ : ℕ => (τ : K) * P.stepSkip.val * P.timeStep.val) taus
        (baseOf r) := by
  -- number of steps and intervals
  obtain ⟨coords', sel', w, disp, r0, hsel', hdisp, hinit, hr⟩ := buildParser_inv h
  have hvol : r.volume = some f0.volume := by rw [hr]
  obtain ⟨hdr, hti, hgd, -⟩ := parserInit_inv hinit
  obtain ⟨-, d1, -, -⟩ := correctDriftSeq_inv hdr
  obtain ⟨-, -, hll, -, hn1, -⟩ := getDisp_inv hdisp
  have hT : r0.dc.n1 = F := by
    rw [d1, hn1, hll]
    simp only [List.length_cons, List.length_map] at hlen ⊢
    omega
  have hint : r.intervals = r0.intervals := by rw [hr]
  rw [hT, hfl, ← hint] at hti
  obtain ⟨coords2, sel2, n, p, nat, a1, a2, a3, a4, a5, a6, a7, a8, a9, a10, a11, a12⟩ := buildParser_windows hsm h (hone _ hti)
  rw [hsel] at a1
  obtain ⟨rfl, rfl⟩ := Prod.mk.inj (Except.ok.inj a1)
  have hlr : (rest.map Frame.frac).length + 1 = F := by simpa using hlen
  rw [hlr] at a2 a6 a9 a12
  obtain ⟨hfm, ham, hp⟩ := hpath n p a4 a2 a5 a6
  rw [hci, hcd, map_atomOf, map_atomOf] at a12
  refine ⟨nat, by rw [hti, a8], a8, a9, hvol, ?_, ?_⟩
  · unfold baseOf
    rw [deltaT_exact E P S hfl _ _ _ _ h, a8, List.map_map]
    apply List.map_congr_left
    intro τ _
    simp
  · simp only [List.length_map] at a12
    have hmem : ∀ τ ∈ nat.filter (fun τ => decide (2 ≤ disjointWindows atoms.length F τ)), 1 ≤ τ ∧ τ ≤ F :=
      fun τ hτ => a9 τ (List.mem_filter.mp hτ).1
    have key : ∀ (ts : List ℕ) (ds : List (Arr3 K)), (∀ τ ∈ ts, 1 ≤ τ ∧ τ ≤ F) →
        List.Forall₂ (FrameWindows F (relTo fw p) atoms) ts ds →
        List.Forall₂ (TrueWindows L u fw atoms F) ts ds := by
      intro ts ds hts hf
      induction hf with
      | nil => exact .nil
      | @cons τ a ts ds hw _ ih =>
        have hb := hts τ (by simp)
        exact .cons (trueWindows_of_frame hp hfm ham hb.1 hb.2 hw)
          (ih fun t ht => hts t (by simp [ht]))
    exact key _ _ hmem a12

theorem build_path {E : Num K} {P : Params K} {S : Select K} {atoms fw : List ℕ} (hP : DefaultGrid E P) {F : ℕ} (hF : 2 ≤ F) {L : M3 K}
    {u : ℕ → ℕ → V3 K} {f0 : Frame K} {rest : List (Frame K)} (hlen : rest.length + 1 = F) {coords : List (List (V3 K))} {sel : Selection}
    (hsel : selectAtoms E.trig f0.symbols (f0.frac :: rest.map Frame.frac) S = .ok (coords, sel))
    (hci : sel.indices = atoms.map fun k : ℕ => (k : ℤ)) (hcd : sel.drift.vals = fw.map fun k : ℕ => (k : ℤ))
    (hpath : ∀ n p, (∀ c ∈ coords, c.length = n) → coords.length = F → (∀ C ∈ f0.latt :: rest.map Frame.latt, NonSingular C) →
      IsPath F n (fun j => (f0.latt :: rest.map Frame.latt).getD j 0) (fun j i => (coords.getD j []).getD i 0) p →
      (∀ a ∈ fw, a < n) ∧ (∀ a ∈ atoms, a < n) ∧ ∀ i < n, ∀ j < F, ∀ l, p i j l = cart L (u i j) l - cart L (u i 0) l) {r : Parsed K}
    (h : buildParser E P S f0 (f0.frac :: f0.frac :: rest.map Frame.frac) (f0.latt :: f0.latt :: rest.map Frame.latt) = .ok r) :
    ∃ taus : List ℕ, initTimeIntervals id E.geo F P.timeStep P.stepSkip none none P.nSteps "linear" =
        .ok (taus.map fun τ : ℕ => (τ : ℤ)) ∧ r.intervals = taus.map (fun τ : ℕ => (τ : ℤ)) ∧
      TrueBase L f0.volume u fw atoms F P.nSteps (fun τ : ℕ => (τ : K) * P.stepSkip.val * P.timeStep.val) taus
        (baseOf r) := by
  obtain ⟨hfl, hpos, hmn, hmx, hsp, hsm⟩ := hP
  have hone : ∀ l, initTimeIntervals id E.geo F P.timeStep P.stepSkip P.minDt P.maxDt P.nSteps P.spacing = .ok l → ∀ τ ∈ l, 1 ≤ τ := by
    rw [hmn, hmx, hsp]
    exact fun l hl => (default_intervals hpos hF hl).1
  obtain ⟨nat, hti, a8, hb⟩ := build_any hfl hsm hlen hone hsel hci hcd hpath h
  rw [hmn, hmx, hsp] at hti
  obtain ⟨-, i2⟩ := default_intervals hpos hF hti
  refine ⟨nat, hti, a8, ?_, hb.range, ?_, hb.volume, hb.deltaT, hb.windows⟩
  · rw [List.pairwise_map] at i2
    exact i2.imp fun h => by exact_mod_cast h
  · intro hN
    have := C09_default_intervals E.geo P.timeStep P.stepSkip hpos F hF P.nSteps hN
    rw [this] at hti
    have := Except.ok.inj hti
    have h2 := congrArg (List.map Int.toNat) this
    simp only [List.map_map] at h2
    have e1 : (Int.toNat ∘ fun i : ℕ => (i : ℤ) + 1) = fun i : ℕ => i + 1 := by funext i; simp
    have e2 : (Int.toNat ∘ fun τ : ℕ => (τ : ℤ)) = id := by funext i; simp
    rw [e1, e2, List.map_id] at h2
    exact h2.symm

/-- What a parser makes of such a trajectory. -/
theorem build_wrapped {E : Num K} {P : Params K} {S : Select K} {sy : List String} {atoms fw : List ℕ} (hS : Picks S sy atoms fw) (hP : DefaultGrid E P) {F : ℕ} (hF : 2 ≤ F) {L : M3 K} {V : K}
    {u : ℕ → ℕ → V3 K} {m : ℕ → ℕ → Fin 3 → ℤ}
    (hstep : ∀ i < sy.length, ∀ j, j + 1 < F → HalfCell fun k => u i (j + 1) k - u i j k) {f0 : Frame K} {rest : List (Frame K)}
    (hw : wrapped F sy L V u m = f0 :: rest) {r : Parsed K}
    (h : buildParser E P S f0 (f0.frac :: f0.frac :: rest.map Frame.frac) (f0.latt :: f0.latt :: rest.map Frame.latt) = .ok r) :
    ∃ taus : List ℕ, initTimeIntervals id E.geo F P.timeStep P.stepSkip none none P.nSteps "linear" =
        .ok (taus.map fun τ : ℕ => (τ : ℤ)) ∧ r.intervals = taus.map (fun τ : ℕ => (τ : ℤ)) ∧
      TrueBase L V u fw atoms F P.nSteps (fun τ : ℕ => (τ : K) * P.stepSkip.val * P.timeStep.val) taus
        (baseOf r) := by
  have hlen : (f0 :: rest).length = F := by rw [← hw]; simp [wrapped]
  have hall : ∀ f ∈ f0 :: rest, f.symbols = sy ∧ f.latt = L ∧ f.volume = V := by
    rw [← hw]
    intro f hf
    unfold wrapped at hf
    obtain ⟨j, -, rfl⟩ := List.mem_map.mp hf
    exact ⟨rfl, rfl, rfl⟩
  have hsy : f0.symbols = sy := (hall f0 (by simp)).1
  obtain ⟨coords', sel', w, disp, r0, hsel', -⟩ := buildParser_inv h
  rw [selectAtoms_dup] at hsel'
  cases hsel : selectAtoms E.trig f0.symbols (f0.frac :: rest.map Frame.frac) S with
  | error e => rw [hsel] at hsel'; cases hsel'
  | ok cs =>
  obtain ⟨coords, sel⟩ := cs
  obtain ⟨hcs, hci, hcd⟩ := picks_select hS (by rw [← hsy]; exact hsel)
  rw [← (hall f0 (by simp)).2.2]
  refine build_path hP hF (by simpa using hlen) hsel hci hcd ?_ h
  intro n p a4 a2 a5 a6
  have hcoord : ∀ j < F, coords.getD j [] = (List.range sy.length).map fun i => fun k => u i j k + (m i j k : K) := by
    intro j hj
    rw [hcs, ← List.map_cons, ← hw]
    simp [wrapped, hj]
  have hn : n = sy.length := by
    have := a4 (coords.getD 0 []) (by
      rw [List.getD_eq_getElem?_getD, List.getElem?_eq_getElem (by rw [a2]; omega)]
      exact List.getElem_mem _)
    rw [hcoord 0 (by omega)] at this
    simpa using this.symm
  subst hn
  have hLf : ∀ j < F, (f0.latt :: rest.map Frame.latt).getD j 0 = L := by
    intro j hj
    have : f0.latt :: rest.map Frame.latt = List.replicate F L := by
      rw [← hlen, ← List.map_const', ← List.map_cons (f := Frame.latt)]
      exact List.map_congr_left fun f hf => (hall f hf).2.1
    rw [this]
    simp [hj]
  have hx : ∀ j < F, ∀ i < sy.length, (coords.getD j []).getD i 0 = fun k => u i j k + (m i j k : K) := by
    intro j hj i hi
    rw [hcoord j hj]
    simp [hi]
  have hL : NonSingular L := a5 L (by rw [← (hall f0 (by simp)).2.1]; simp)
  exact ⟨(picks_mem hS).2, (picks_mem hS).1, path_is_true hL hstep hLf hx a6⟩

theorem kept_prefix {F N : ℕ} {taus : List ℕ} (hs : taus.Pairwise (· ≤ ·)) (h1 : ∀ τ ∈ taus, 1 ≤ τ ∧ τ ≤ F) :
    ∃ k, resolved N F taus = taus.take k := by
  unfold resolved
  refine ⟨(taus.filter fun τ => decide (τ = 0 ∨ 2 ≤ N * (F / τ))).length, ?_⟩
  have hc : (taus.filter fun τ => decide (2 ≤ N * (F / τ))) = taus.filter fun τ => decide (τ = 0 ∨ 2 ≤ N * (F / τ)) := by
    apply List.filter_congr
    intro τ h
    have := (h1 τ h).1
    simp only [decide_eq_decide]
    constructor
    · exact Or.inr
    · rintro (h | h)
      · omega
      · exact h
  rw [hc]
  apply filter_eq_take _ hs
  intro a b hab hb
  simp only [decide_eq_true_eq] at hb ⊢
  rcases Nat.eq_zero_or_pos a with h | h
  · exact Or.inl h
  · rcases hb with hb | hb
    · omega
    · exact Or.inr (hb.trans (disjointWindows_anti _ _ h hab))

theorem disjoint_le_windows {F τ : ℕ} (h1 : 1 ≤ τ) (h2 : τ ≤ F) : F / τ ≤ F - τ + 1 := by
  rw [Nat.div_le_iff_le_mul_add_pred h1]
  obtain ⟨d, rfl⟩ := Nat.exists_eq_add_of_le h2
  simp
  nlinarith [Nat.zero_le d, Nat.mul_le_mul_right d h1]

/-- The MSD of a parsed trajectory, with default `sub_sample_dt`. -/
theorem msd_of_path {L : M3 K} {V : K} {u : ℕ → ℕ → V3 K} {fw atoms : List ℕ} {F : ℕ} {t : ℕ → K} {taus : List ℕ}
    {B : Base K} (hB : PathBase L V u fw atoms F t taus B) (hs : taus.Pairwise (· ≤ ·))
    {sq : K → K} {o : Oracle K G} {U : UncParams K} (hblock : U.opt.block = false) (hsub : U.sub = 1)
    {g g' : G} {b : Boot K}
    (h : msdBootstrap sq o U.opt g B.deltaT B.disp3d B.nO U.sub U.dimension = .ok (b, g')) :
    b.n = (resolved atoms.length F taus).map (reportedMsd (axesOf U.dimension) L u fw atoms F) ∧
      b.dt = (resolved atoms.length F taus).map t := by
  obtain ⟨h1, -, hd, hf⟩ := hB
  obtain ⟨ds, dts, e1, e2, e3, e4, e5⟩ := C28_msd sq o U.opt hblock g g' B.deltaT B.disp3d B.nO U.sub U.dimension b h
  rw [hsub, pyStride_one] at e1 e2
  obtain rfl := Except.ok.inj e1
  obtain rfl := Except.ok.inj e2
  generalize B.disp3d = disp at hf e4 e5
  generalize hN : atoms.length = N at hf
  obtain ⟨k, hk⟩ := kept_prefix (N := N) hs h1
  generalize hkept : resolved N F taus = kept at hf hk ⊢
  have hmem : ∀ τ ∈ kept, 1 ≤ τ ∧ τ ≤ F ∧ 2 ≤ N * (F / τ) := by
    intro τ hτ
    rw [← hkept, resolved, List.mem_filter] at hτ
    exact ⟨(h1 τ hτ.1).1, (h1 τ hτ.1).2, by simpa using hτ.2⟩
  have hlen := hf.length_eq
  have hat : ∀ i (hi : i < kept.length), ∃ a, disp[i]? = some a ∧ a.n0 = N ∧ a.n1 = F - kept[i] + 1 ∧
      msd (axesOf U.dimension) a = reportedMsd (axesOf U.dimension) L u fw atoms F kept[i] := by
    intro i hi
    have hi' : i < disp.length := by omega
    have := List.forall₂_iff_get.mp hf |>.2 i hi hi'
    exact ⟨disp[i], List.getElem?_eq_getElem hi', this.1.trans hN, this.2.1, msd_true this _⟩
  have hfull : b.n.length = kept.length := by
    apply le_antisymm
    · by_contra hc
      push Not at hc
      obtain ⟨a, ha, -⟩ := e4 kept.length hc
      rw [List.getElem?_eq_none (by omega)] at ha
      cases ha
    · by_contra hc
      push Not at hc
      obtain ⟨a, ha, a0, a1, -⟩ := hat b.n.length hc
      have hle := e5 b.n.length le_rfl a ha
      obtain ⟨b1, b2, b3⟩ := hmem kept[b.n.length] (List.getElem_mem _)
      rw [a0, a1] at hle
      have hdiv : F / kept[b.n.length] ≤ F - kept[b.n.length] + 1 := by
        have := disjoint_le_windows b1 b2
        exact this
      have := Nat.mul_le_mul_left N hdiv
      omega
  constructor
  · apply List.ext_getElem (by simp [hfull])
    intro i hi hi'
    simp only [List.length_map] at hi'
    obtain ⟨a, ha, -, hn, -⟩ := e4 i hi
    obtain ⟨a', ha', -, -, hm⟩ := hat i hi'
    rw [ha] at ha'
    obtain rfl := Option.some.inj ha'
    rw [List.getElem?_eq_getElem hi] at hn
    rw [Option.some.inj hn, hm, List.getElem_map]
  · apply List.ext_getElem (by simp [e3, hfull])
    intro i hi hi'
    simp only [List.length_map] at hi'
    obtain ⟨a, ha, -, -, hdt⟩ := e4 i (by omega)
    have hi2 : i < taus.length := by
      have : kept.length ≤ taus.length := by rw [← hkept, resolved]; exact List.length_filter_le _ _
      omega
    have hki : kept[i] = taus[i] := by
      have : kept[i]? = taus[i]? := by
        rw [hk, List.getElem?_take, if_pos]
        have := congrArg List.length hk
        rw [List.length_take] at this
        omega
      rw [List.getElem?_eq_getElem hi', List.getElem?_eq_getElem hi2] at this
      exact Option.some.inj this
    rw [List.getElem?_eq_getElem hi, hd, List.getElem?_map, List.getElem?_eq_getElem hi2] at hdt
    rw [List.getElem_map, hki]
    exact Option.some.inj hdt

theorem msd_of_parsed {L : M3 K} {V : K} {u : ℕ → ℕ → V3 K} {fw atoms : List ℕ} {F : ℕ} {nSteps : ℤ} {t : ℕ → K} {taus : List ℕ}
    {B : Base K} (hB : TrueBase L V u fw atoms F nSteps t taus B)
    {sq : K → K} {o : Oracle K G} {U : UncParams K} (hblock : U.opt.block = false) (hsub : U.sub = 1)
    {g g' : G} {b : Boot K}
    (h : msdBootstrap sq o U.opt g B.deltaT B.disp3d B.nO U.sub U.dimension = .ok (b, g')) :
    b.n = (resolved atoms.length F taus).map (reportedMsd (axesOf U.dimension) L u fw atoms F) ∧
      b.dt = (resolved atoms.length F taus).map t :=
  msd_of_path hB.toPath (hB.sorted.imp fun h => h.le) hblock hsub h

theorem diffusion_inv {sq : K → K} {o : Oracle K G} {g g' : G} {U : UncParams K} {base : PyM (Base K)} {Z : Analyzer K}
    (h : diffusionAnalyzer sq o g U base = .ok (Z, g')) : ∃ B : Base K, base = .ok B ∧ Z.toBase = B ∧
      msdBootstrap sq o U.opt g B.deltaT B.disp3d B.nO U.sub U.dimension = .ok (Z.diff, g') := by
  unfold diffusionAnalyzer at h
  cases hb : base with
  | error e => rw [hb] at h; cases h
  | ok B =>
    rw [hb] at h
    simp only [bind, Except.bind] at h
    cases hm : msdBootstrap sq o U.opt g B.deltaT B.disp3d B.nO U.sub U.dimension with
    | error e => rw [hm] at h; cases h
    | ok r =>
      obtain ⟨b, g1⟩ := r
      rw [hm] at h
      obtain ⟨rfl, rfl⟩ := Prod.mk.inj (Except.ok.inj h)
      exact ⟨B, rfl, rfl, hm⟩

theorem wrapped_cons {F : ℕ} (hF : 2 ≤ F) (sy : List String) (L : M3 K) (V : K) (u : ℕ → ℕ → V3 K) (m : ℕ → ℕ → Fin 3 → ℤ) :
    ∃ f0 rest, wrapped F sy L V u m = f0 :: rest := by
  cases h : wrapped F sy L V u m with
  | nil => have := congrArg List.length h; simp [wrapped] at this; omega
  | cons f0 rest => exact ⟨f0, rest, rfl⟩

/-- The object that `_from_ase` makes of such a trajectory. -/
theorem ase_base {E : Num K} {P : Params K} {S : Select K} {sy : List String} {atoms fw : List ℕ} (hS : Picks S sy atoms fw) (hP : DefaultGrid E P) {F : ℕ} (hF : 2 ≤ F) {L : M3 K} {V : K}
    {u : ℕ → ℕ → V3 K} {m : ℕ → ℕ → Fin 3 → ℤ}
    (hstep : ∀ i < sy.length, ∀ j, j + 1 < F → HalfCell fun k => u i (j + 1) k - u i j k) {B : Base K}
    (hB : fromAse E P S 1 none (.one (wrapped F sy L V u m)) = .ok B) :
    ∃ taus : List ℕ, initTimeIntervals id E.geo F P.timeStep P.stepSkip none none P.nSteps "linear" =
        .ok (taus.map fun τ : ℕ => (τ : ℤ)) ∧
      TrueBase L V u fw atoms F P.nSteps (fun τ : ℕ => (τ : K) * P.stepSkip.val * P.timeStep.val) taus B := by
  obtain ⟨f0, rest, hw⟩ := wrapped_cons hF sy L V u m
  unfold fromAse analyzerFrom at hB
  simp only [Traj.asOne, bind, Except.bind] at hB
  cases hp : aseParser E P S 1 (wrapped F sy L V u m) with
  | error e => rw [hp] at hB; cases hB
  | ok r =>
  rw [hp] at hB
  obtain rfl := Except.ok.inj hB
  unfold aseParser at hp
  rw [pyStride_one, hw] at hp
  simp only [bind, Except.bind, structureCoordsLatt, List.map_cons] at hp
  obtain ⟨taus, t0, t1, t2⟩ := build_wrapped hS hP hF hstep hw hp
  exact ⟨taus, t0, t2⟩

/-- The object that `_from_pymatgen` makes of such a trajectory. -/
theorem pymatgen_base {E : Num K} {P : Params K} {S : Select K} {sy : List String} {atoms fw : List ℕ} (hS : Picks S sy atoms fw) (hP : DefaultGrid E P) {F : ℕ} (hF : 2 ≤ F) {L : M3 K} {V : K}
    {u : ℕ → ℕ → V3 K} {m : ℕ → ℕ → Fin 3 → ℤ}
    (hstep : ∀ i < sy.length, ∀ j, j + 1 < F → HalfCell fun k => u i (j + 1) k - u i j k) {B : Base K}
    (hB : fromPymatgen E P S 1 none (.one (wrapped F sy L V u m)) = .ok B) :
    ∃ taus : List ℕ, initTimeIntervals id E.geo F P.timeStep (P.stepSkip.mul E.fl (.int 1)) none none P.nSteps "linear" =
        .ok (taus.map fun τ : ℕ => (τ : ℤ)) ∧
      TrueBase L V u fw atoms F P.nSteps (fun τ : ℕ => (τ : K) * P.stepSkip.val * P.timeStep.val / 1000) taus
        B := by
  obtain ⟨f0, rest, hw⟩ := wrapped_cons hF sy L V u m
  unfold fromPymatgen analyzerFrom at hB
  simp only [Traj.asOne, bind, Except.bind] at hB
  cases hp : pymatgenParser E P S 1 (wrapped F sy L V u m) with
  | error e => rw [hp] at hB; cases hB
  | ok r =>
  rw [hp] at hB
  obtain rfl := Except.ok.inj hB
  have h18 := C18_pymatgen E P S hP.1 1 _ r hp
  unfold pymatgenParser at hp
  rw [pyStride_one, hw] at hp
  simp only [bind, Except.bind, structureCoordsLatt, List.map_cons] at hp
  cases hb : buildParser E { P with stepSkip := P.stepSkip.mul E.fl (.int 1) } S f0 (f0.frac :: f0.frac :: rest.map Frame.frac)
    (f0.latt :: f0.latt :: rest.map Frame.latt) with
  | error e => rw [hb] at hp; cases hp
  | ok r0 =>
  rw [hb] at hp
  simp only at hp
  split_ifs at hp
  have hP' : DefaultGrid E { P with stepSkip := P.stepSkip.mul E.fl (.int 1) } := by
    obtain ⟨a, b, c⟩ := hP
    refine ⟨a, ?_, c⟩
    dsimp only
    rw [a, PyNum.val_mul_id]
    simpa [PyNum.val] using b
  obtain ⟨taus, t0, t1, t2⟩ := build_wrapped hS hP' hF hstep hw hb
  have hri : r.intervals = r0.intervals ∧ r.disp3d = r0.disp3d ∧ r.volume = r0.volume := by
    rw [← Except.ok.inj hp]; exact ⟨rfl, rfl, rfl⟩
  rw [hri.1, t1, List.map_map] at h18
  refine ⟨taus, t0, t2.sorted, t2.range, t2.full, ?_, ?_, ?_⟩
  · have := t2.volume
    unfold baseOf at this ⊢
    rw [hri.2.2]; exact this
  · unfold baseOf
    rw [h18]
    apply List.map_congr_left
    intro τ _
    simp
  · have := t2.windows
    unfold baseOf at this ⊢
    rw [hri.2.1]; exact this

/-- **C70 (ASE).** A trajectory of `F` frames in a fixed cell `L`, moving by less than half a cell per frame, stored with arbitrary
periodic images `m`.  With default bounds of the intervals and default `uncertainty_params` the analyzer reports, for an ascending
list of intervals `τ` (all of `1, …, F` if `n_steps` allows), the average `reportedMsd` of squared true displacements (relative to the
framework, if there is one), at the times `τ · step_skip · time_step`.  An interval is left out only if the chosen atoms have fewer
than two disjoint windows of that length. -/
theorem C70_ase (E : Num K) (P : Params K) (S : Select K) (sy : List String) (atoms fw : List ℕ) (hS : Picks S sy atoms fw)
    (hP : DefaultGrid E P) (F : ℕ) (hF : 2 ≤ F) (L : M3 K) (V : K) (u : ℕ → ℕ → V3 K) (m : ℕ → ℕ → Fin 3 → ℤ)
    (hstep : ∀ i < sy.length, ∀ j, j + 1 < F → HalfCell fun k => u i (j + 1) k - u i j k)
    (sq : K → K) (o : Oracle K G) (U : UncParams K) (hblock : U.opt.block = false) (hsub : U.sub = 1) (g g' : G) (Z : Analyzer K)
    (h : diffusionAnalyzer sq o g U (fromAse E P S 1 none (.one (wrapped F sy L V u m))) = .ok (Z, g')) :
    ∃ taus : List ℕ, taus.Pairwise (· < ·) ∧ (∀ τ ∈ taus, 1 ≤ τ ∧ τ ≤ F) ∧
      ((F : ℤ) ≤ P.nSteps → taus = (List.range F).map fun i => i + 1) ∧ Z.volume = some V ∧
      Z.diff.n = (resolved atoms.length F taus).map
        (reportedMsd (axesOf U.dimension) L u fw atoms F) ∧
      Z.diff.dt = (resolved atoms.length F taus).map
        fun τ : ℕ => (τ : K) * P.stepSkip.val * P.timeStep.val := by
  obtain ⟨B, hB, rfl, hm⟩ := diffusion_inv h
  obtain ⟨taus, -, ht⟩ := ase_base hS hP hF hstep hB
  exact ⟨taus, ht.sorted, ht.range, ht.full, ht.volume, msd_of_parsed ht hblock hsub hm⟩

/-- **C70 (pymatgen).** The same, with the time axis in picoseconds for a time step in femtoseconds. -/
theorem C70_pymatgen (E : Num K) (P : Params K) (S : Select K) (sy : List String) (atoms fw : List ℕ) (hS : Picks S sy atoms fw)
    (hP : DefaultGrid E P) (F : ℕ) (hF : 2 ≤ F) (L : M3 K) (V : K) (u : ℕ → ℕ → V3 K) (m : ℕ → ℕ → Fin 3 → ℤ)
    (hstep : ∀ i < sy.length, ∀ j, j + 1 < F → HalfCell fun k => u i (j + 1) k - u i j k)
    (sq : K → K) (o : Oracle K G) (U : UncParams K) (hblock : U.opt.block = false) (hsub : U.sub = 1) (g g' : G) (Z : Analyzer K)
    (h : diffusionAnalyzer sq o g U (fromPymatgen E P S 1 none (.one (wrapped F sy L V u m))) = .ok (Z, g')) :
    ∃ taus : List ℕ, taus.Pairwise (· < ·) ∧ (∀ τ ∈ taus, 1 ≤ τ ∧ τ ≤ F) ∧
      ((F : ℤ) ≤ P.nSteps → taus = (List.range F).map fun i => i + 1) ∧ Z.volume = some V ∧
      Z.diff.n = (resolved atoms.length F taus).map
        (reportedMsd (axesOf U.dimension) L u fw atoms F) ∧
      Z.diff.dt = (resolved atoms.length F taus).map
        fun τ : ℕ => (τ : K) * P.stepSkip.val * P.timeStep.val / 1000 := by
  obtain ⟨B, hB, rfl, hm⟩ := diffusion_inv h
  obtain ⟨taus, -, ht⟩ := pymatgen_base hS hP hF hstep hB
  exact ⟨taus, ht.sorted, ht.range, ht.full, ht.volume, msd_of_parsed ht hblock hsub hm⟩

theorem map_cast_inj {a b : List ℕ} (h : (Except.ok (a.map fun τ : ℕ => (τ : ℤ)) : PyM (List ℤ)) = .ok (b.map fun τ : ℕ => (τ : ℤ))) :
    a = b := by
  have := Except.ok.inj h
  exact (List.map_injective_iff.mpr fun x y hxy => by exact_mod_cast hxy) this

/-- **C70, periodic images.** Two files that store the same motion with different periodic images give the same MSD and times,
whatever the state of the random number generator. -/
theorem C70_images (E : Num K) (P : Params K) (S : Select K) (sy : List String) (atoms fw : List ℕ) (hS : Picks S sy atoms fw)
    (hP : DefaultGrid E P) (F : ℕ) (hF : 2 ≤ F) (L : M3 K) (V : K) (u : ℕ → ℕ → V3 K)
    (m m' : ℕ → ℕ → Fin 3 → ℤ)
    (hstep : ∀ i < sy.length, ∀ j, j + 1 < F → HalfCell fun k => u i (j + 1) k - u i j k)
    (sq : K → K) (o : Oracle K G) (U : UncParams K) (hblock : U.opt.block = false) (hsub : U.sub = 1) (g₁ g₂ g₁' g₂' : G)
    (Z₁ Z₂ : Analyzer K) :
    (diffusionAnalyzer sq o g₁ U (fromAse E P S 1 none (.one (wrapped F sy L V u m))) = .ok (Z₁, g₁') →
      diffusionAnalyzer sq o g₂ U (fromAse E P S 1 none (.one (wrapped F sy L V u m'))) = .ok (Z₂, g₂') →
      Z₁.diff.n = Z₂.diff.n ∧ Z₁.diff.dt = Z₂.diff.dt) ∧
    (diffusionAnalyzer sq o g₁ U (fromPymatgen E P S 1 none (.one (wrapped F sy L V u m))) = .ok (Z₁, g₁') →
      diffusionAnalyzer sq o g₂ U (fromPymatgen E P S 1 none (.one (wrapped F sy L V u m'))) = .ok (Z₂, g₂') →
      Z₁.diff.n = Z₂.diff.n ∧ Z₁.diff.dt = Z₂.diff.dt) := by
  constructor
  · intro h h'
    obtain ⟨B, hB, rfl, hm⟩ := diffusion_inv h
    obtain ⟨B', hB', rfl, hm'⟩ := diffusion_inv h'
    obtain ⟨t, a0, ht⟩ := ase_base hS hP hF hstep hB
    obtain ⟨t', b0, ht'⟩ := ase_base hS hP hF hstep hB'
    obtain rfl := map_cast_inj (a0.symm.trans b0)
    obtain ⟨a1, a2⟩ := msd_of_parsed ht hblock hsub hm
    obtain ⟨b1, b2⟩ := msd_of_parsed ht' hblock hsub hm'
    exact ⟨a1.trans b1.symm, a2.trans b2.symm⟩
  · intro h h'
    obtain ⟨B, hB, rfl, hm⟩ := diffusion_inv h
    obtain ⟨B', hB', rfl, hm'⟩ := diffusion_inv h'
    obtain ⟨t, a0, ht⟩ := pymatgen_base hS hP hF hstep hB
    obtain ⟨t', b0, ht'⟩ := pymatgen_base hS hP hF hstep hB'
    obtain rfl := map_cast_inj (a0.symm.trans b0)
    obtain ⟨a1, a2⟩ := msd_of_parsed ht hblock hsub hm
    obtain ⟨b1, b2⟩ := msd_of_parsed ht' hblock hsub hm'
    exact ⟨a1.trans b1.symm, a2.trans b2.symm⟩

/-- Two Li atoms that move by `j² / 50` and `-j² / 50` cells along x and one O atom that stays, as in `exTraj`. -/
def exTrue (i j : ℕ) : V3 ℚ := ![if i = 0 then (j : ℚ) ^ 2 / 50 else if i = 1 then 1 / 2 else 1 - (j : ℚ) ^ 2 / 50, 0, 0]

/-- Images as a file with coordinates between 0 and 1 might store them, and some others. -/
def exImages (i j : ℕ) : Fin 3 → ℤ := ![if i = 0 then (j : ℤ) else -3, if j = 2 then 1 else 0, (i : ℤ) - 5]

/-- Default `uncertainty_params`, with the small numbers of bootstrap draws used in the examples. -/
def exUnc : UncParams ℚ := { opt := exOpts ℚ }

theorem exGrid : DefaultGrid exNum exParams := ⟨rfl, by decide +kernel, rfl, rfl, rfl, rfl⟩

theorem exTrue_half : ∀ i < 3, ∀ j, j + 1 < 5 → HalfCell fun k => exTrue i (j + 1) k - exTrue i j k := by
  intro i hi j hj k
  have : j < 4 := by omega
  interval_cases i <;> interval_cases j <;> fin_cases k <;> decide +kernel

theorem exPicks : Picks exSelect ["Li", "O", "Li"] [0, 2] [1] := .species ["Li"] rfl rfl

/-- Species; species with a framework; atom numbers. -/
example : Picks exSelect ["Li", "O", "Li"] [0, 2] [1] ∧
    Picks { exSelect with framework := some ⟨false, [1]⟩ } ["Li", "O", "Li"] [0, 2] [1] ∧
    Picks { exSelect with specie := none, specieIdx := .flat ⟨false, [2, 0]⟩ } ["Li", "O", "Li"] [2, 0] [1] :=
  ⟨.species ["Li"] rfl rfl, .framework ["Li"] [1] false rfl rfl (by decide), .numbers [2, 0] false rfl rfl rfl (by decide)⟩

example : ((diffusionAnalyzer id (exOracle ℚ) () exUnc (fromAse exNum exParams exSelect 1 none
      (.one (wrapped 5 ["Li", "O", "Li"] exBox 1000 exTrue exImages)))).toOption.map fun z => (z.1.diff.n, z.1.diff.dt)) =
    some ([84 / 125, 9 / 4, 322 / 75, 337 / 50, 256 / 25], [6, 12, 18, 24, 30]) := by
  decide +kernel

/-- `C70_ase` and `C70_pymatgen` for this trajectory: both analyses succeed and report the averages of the specification. -/
example : (∃ Z, diffusionAnalyzer id (exOracle ℚ) () exUnc (fromAse exNum exParams exSelect 1 none
      (.one (wrapped 5 ["Li", "O", "Li"] exBox 1000 exTrue exImages))) = .ok (Z, ()) ∧
      Z.diff.n = (resolved 2 5 [1, 2, 3, 4, 5]).map (reportedMsd Finset.univ exBox exTrue [1] [0, 2] 5)) ∧
    ∃ Z, diffusionAnalyzer id (exOracle ℚ) () exUnc (fromPymatgen exNum exParams exSelect 1 none
      (.one (wrapped 5 ["Li", "O", "Li"] exBox 1000 exTrue exImages))) = .ok (Z, ()) ∧
      Z.diff.n = (resolved 2 5 [1, 2, 3, 4, 5]).map (reportedMsd Finset.univ exBox exTrue [1] [0, 2] 5) := by
  have hax : axesOf exUnc.dimension = Finset.univ := by decide +kernel
  constructor
  · obtain ⟨⟨Z, g⟩, h⟩ := ok_of_isSome (x := diffusionAnalyzer id (exOracle ℚ) () exUnc (fromAse exNum exParams exSelect 1 none
      (.one (wrapped 5 ["Li", "O", "Li"] exBox 1000 exTrue exImages)))) (by decide +kernel)
    obtain ⟨taus, -, -, ht, -, hn, -⟩ := C70_ase exNum exParams exSelect _ _ _ exPicks exGrid 5 (by decide) exBox 1000 exTrue exImages
      exTrue_half id (exOracle ℚ) exUnc rfl rfl () () Z h
    rw [ht (by decide +kernel), hax] at hn
    exact ⟨Z, h, hn⟩
  · obtain ⟨⟨Z, g⟩, h⟩ := ok_of_isSome (x := diffusionAnalyzer id (exOracle ℚ) () exUnc (fromPymatgen exNum exParams exSelect 1 none
      (.one (wrapped 5 ["Li", "O", "Li"] exBox 1000 exTrue exImages)))) (by decide +kernel)
    obtain ⟨taus, -, -, ht, -, hn, -⟩ := C70_pymatgen exNum exParams exSelect _ _ _ exPicks exGrid 5 (by decide) exBox 1000 exTrue
      exImages exTrue_half id (exOracle ℚ) exUnc rfl rfl () () Z h
    rw [ht (by decide +kernel), hax] at hn
    exact ⟨Z, h, hn⟩

end Kinisi
