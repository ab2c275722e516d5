import Verif.Props.Paths
import Mathlib.Tactic.IntervalCases

/-!
# C103: the intervals asked for with `min_dt`, `max_dt`, `n_steps` and `spacing`, from the trajectory to the reported curves
-/

set_option linter.unusedSectionVars false
set_option linter.unusedVariables false

namespace Kinisi
open Spec
variable {K : Type} [Field K] [LinearOrder K] [IsStrictOrderedRing K] [FloorRing K] {G : Type}

/-- The user asks for intervals from `m` to `M` frames: `min_dt` and `max_dt` in whole steps, rounded down, at least one; the defaults are
one step and the whole trajectory. -/
structure UserGrid (E : Num K) (P : Params K) (F m M : ℕ) : Prop where
  fl : E.fl = id
  pos : 0 < P.stepSkip.val * P.timeStep.val
  sampling : P.sampling = "multi-origin"
  minNonneg : 0 ≤ P.minDt.getD (P.stepSkip.val * P.timeStep.val)
  maxNonneg : 0 ≤ P.maxDt.getD ((F : K) * (P.stepSkip.val * P.timeStep.val))
  first : (m : ℤ) = max 1 ⌊P.minDt.getD (P.stepSkip.val * P.timeStep.val) / (P.stepSkip.val * P.timeStep.val)⌋
  last : (M : ℤ) = ⌊P.maxDt.getD ((F : K) * (P.stepSkip.val * P.timeStep.val)) / (P.stepSkip.val * P.timeStep.val)⌋
  ordered : m ≤ M
  spacing : P.spacing = "linear" ∨ P.spacing = "logarithmic" ∧ ∀ n, ∀ i < n, (m : K) ≤ E.geo m M n i ∧ E.geo m M n i ≤ M

theorem grid_intervals {E : Num K} {P : Params K} {F m M : ℕ} (hG : UserGrid E P F m M) {ss : PyNum K} (hss : ss.val = P.stepSkip.val)
    {l : List ℤ} (h : initTimeIntervals id E.geo F P.timeStep ss P.minDt P.maxDt P.nSteps P.spacing = .ok l) :
    l.Pairwise (· ≤ ·) ∧ (∀ τ ∈ l, (m : ℤ) ≤ τ ∧ τ ≤ M) ∧ (∀ τ, l.head? = some τ → τ = m) ∧ (2 ≤ l.length → l.getLast? = some (M : ℤ)) ∧
      (P.spacing = "logarithmic" ∨ P.nSteps ≤ (M : ℤ) - m + 1 → l.Pairwise (· < ·)) := by
  obtain ⟨hfl, hpos, -, h0, h1, hm, hM, hmM, hsp⟩ := hG
  rw [← hss] at hpos h0 h1 hm hM
  have e1 : minDtOf id P.timeStep ss P.minDt = P.minDt.getD (ss.val * P.timeStep.val) := by
    cases P.minDt with
    | none => simp [minDtOf, PyNum.val_mul_id]
    | some x => rfl
  have e2 : maxDtOf id F P.timeStep ss P.maxDt = P.maxDt.getD ((F : K) * (ss.val * P.timeStep.val)) := by
    cases P.maxDt with
    | none => simp [maxDtOf, PyNum.val_mul_id]; simp [PyNum.val]
    | some x => rfl
  generalize hmin : P.minDt.getD (ss.val * P.timeStep.val) = mn at e1 h0 hm
  generalize hmax : P.maxDt.getD ((F : K) * (ss.val * P.timeStep.val)) = mx at e2 h1 hM
  have s1 := stepsOf_id (ts := P.timeStep) hpos h0
  have s2 := stepsOf_id (ts := P.timeStep) hpos h1
  rw [← hM] at s2
  unfold initTimeIntervals at h
  dsimp only at h
  rw [e1, e2, s1] at h
  simp only [bind, Except.bind] at h
  split_ifs at h with hT hN <;> clear hT
  all_goals
    have hn0 : 0 ≤ ⌊mn / (ss.val * P.timeStep.val)⌋ := Int.floor_nonneg.2 (div_nonneg h0 hpos.le)
    generalize hk : ⌊mn / (ss.val * P.timeStep.val)⌋ = k at *
  case' pos => generalize hN' : (F : ℤ) - k + 1 = N at *; have hNs : N ≤ P.nSteps := by omega
  case' neg => generalize hN' : P.nSteps = N at *; have hNs : N ≤ N := le_rfl
  all_goals
    have ha : (m : ℤ) = if k = 0 then 1 else k := by split_ifs <;> omega
    rcases hsp with hsp | ⟨hsp, hgeo⟩
  case pos.inl | neg.inl =>
    rw [hsp] at h ⊢
    obtain ⟨d1, d0, dneg⟩ := C07_degenerate_counts id E.geo P.timeStep ss _ _ _ _ s1 s2
    rcases lt_or_ge N 0 with hN | hN
    · rw [dneg N hN] at h; cases h
    obtain ⟨c, rfl⟩ := Int.eq_ofNat_of_zero_le hN
    rcases Nat.lt_or_ge c 2 with hc | hc
    · interval_cases c
      · rw [show ((0 : ℕ) : ℤ) = 0 by rfl, d0] at h
        obtain rfl := Except.ok.inj h
        simp
      · rw [show ((1 : ℕ) : ℤ) = 1 by rfl, d1, ← ha] at h
        obtain rfl := Except.ok.inj h
        simp [hmM]
    · obtain ⟨l', hl, hlen, g0, gl, gs, gr, -⟩ := C07_linear_intervals E.geo P.timeStep ss _ rfl hpos _ _ h0 h1 m M
        (by rw [hk]; exact hm) hM (by exact_mod_cast hmM) c hc
      rw [hl] at h
      obtain rfl := Except.ok.inj h
      refine ⟨gs, gr, ?_, fun _ => ?_, ?_⟩
      · intro τ hτ
        rw [List.head?_eq_getElem?, g0] at hτ
        exact (Option.some.inj hτ).symm
      · rw [List.getLast?_eq_getElem?, hlen, gl]
      · intro hor
        have hor : P.nSteps ≤ (M : ℤ) - m + 1 := by
          rcases hor with h | h
          · exact absurd h (by decide)
          · omega
        obtain ⟨l2, hl2, hnd⟩ := C08_distinct_iff_partial E.geo P.timeStep ss _ rfl hpos _ _ h0 h1 m M
          (by rw [hk]; exact hm) hM (by exact_mod_cast hmM) c
        rw [hl] at hl2
        obtain rfl := Except.ok.inj hl2
        have hnd := hnd.mpr (by omega)
        exact (gs.and hnd).imp fun ⟨h1, h2⟩ => lt_of_le_of_ne h1 h2
  case pos.inr | neg.inr =>
    rw [hsp] at h ⊢
    rcases lt_or_ge N 0 with hN | hN
    · exfalso
      unfold getTimeIntervals at h
      rw [s1, s2] at h
      simp only [bind, Except.bind] at h
      rw [if_neg (by decide), if_pos trivial, geomspaceInt, ← ha, if_neg (by omega), if_pos hN] at h
      cases h
    obtain ⟨c, rfl⟩ := Int.eq_ofNat_of_zero_le hN
    rcases Nat.lt_or_ge c 1 with hc | hc
    · obtain rfl : c = 0 := by omega
      have : l = [] := by
        unfold getTimeIntervals at h
        rw [s1, s2] at h
        simp only [bind, Except.bind] at h
        rw [if_neg (by decide), if_pos trivial, geomspaceInt, ← ha, if_neg (by omega), if_neg (by simp)] at h
        exact (Except.ok.inj h).symm.trans (by simp [npUnique])
      subst this
      simp
    · obtain ⟨l', hl, gs, gl, gr, ga, gb⟩ := C10_logarithmic_intervals id E.geo P.timeStep ss _ _ k M m s1 s2 ha
        (by omega) (by exact_mod_cast hmM) c hc (fun i hi => by exact_mod_cast hgeo c i hi)
      rw [hl] at h
      obtain rfl := Except.ok.inj h
      refine ⟨gs.imp fun h => h.le, gr, ?_, fun h2 => ?_, fun _ => gs⟩
      · intro τ hτ
        cases l' with
        | nil => cases hτ
        | cons x xs =>
          obtain rfl := Option.some.inj hτ
          rcases List.mem_cons.mp ga with rfl | hx
          · rfl
          · have := List.rel_of_pairwise_cons gs hx
            have := (gr x (by simp)).1
            omega
      · have hb := gb (by omega)
        obtain ⟨ys, x, rfl⟩ := List.eq_nil_or_concat l' |>.resolve_left (by rintro rfl; simp at h2)
        rw [List.concat_eq_append] at *
        rw [List.getLast?_append, List.getLast?_singleton]
        simp only [Option.some_or, Option.some.injEq]
        rw [List.mem_append, List.mem_singleton] at hb
        rcases hb with hb | hb
        · have := (List.pairwise_append.mp gs).2.2 _ hb x (by simp)
          have := (gr x (by simp)).2
          omega
        · exact hb.symm

/-- The intervals that were asked for: ordered, from `m` to `M`, none beyond the trajectory. -/
structure Asked (F m M : ℕ) (taus : List ℕ) : Prop where
  sorted : taus.Pairwise (· ≤ ·)
  range : ∀ τ ∈ taus, m ≤ τ ∧ τ ≤ M ∧ τ ≤ F
  first : ∀ τ, taus.head? = some τ → τ = m
  last : 2 ≤ taus.length → taus.getLast? = some M

theorem grid_base {E : Num K} {P : Params K} {S : Select K} {sy : List String} {atoms fw : List ℕ} (hS : Picks S sy atoms fw)
    {F m M : ℕ} (hF : 2 ≤ F) (hG : UserGrid E P F m M) {C : ℕ → M3 K} {V : ℕ → K} {s x : ℕ → ℕ → V3 K} (hs : StoredIn F sy.length C s x)
    {base : PyM (Base K)} {unit : K} (hbase : ReadFrames E P S (cellFrames F sy C V s) (cellUniverse F sy C V s) base unit) {B : Base K}
    (hB : base = .ok B) :
    ∃ taus : List ℕ, Asked F m M taus ∧ (P.spacing = "logarithmic" ∨ P.nSteps ≤ (M : ℤ) - m + 1 → taus.Pairwise (· < ·)) ∧
      PathBase unitCell (V 0) x fw atoms F (fun τ : ℕ => (τ : K) * P.stepSkip.val * P.timeStep.val / unit) taus B := by
  obtain ⟨f0, rest, hw, hlen, hv, hf⟩ := cell_follows (E := E) (V := V) hS hF hs
  rw [hw] at hbase
  have hm1 : 1 ≤ m := by have := hG.first; omega
  obtain ⟨taus, ss, hss, hti, ht⟩ := frames_any hG.fl hG.sampling hlen hf (by
    intro ss hss l hl τ hτ
    have := ((grid_intervals hG hss hl).2.1 τ hτ).1
    omega) (fun fr h => (cellUniverse_frames h).trans hw) hbase hB
  rw [hv] at ht
  obtain ⟨g1, g2, g3, g4, g5⟩ := grid_intervals hG hss hti
  refine ⟨taus, ⟨?_, ?_, ?_, ?_⟩, ?_, ht⟩
  · rw [List.pairwise_map] at g1
    exact g1.imp fun h => by exact_mod_cast h
  · intro τ hτ
    have := g2 τ (List.mem_map.mpr ⟨τ, hτ, rfl⟩)
    have := (ht.range τ hτ).2
    omega
  · intro τ hτ
    have := g3 τ (by rw [List.head?_map, hτ]; rfl)
    omega
  · intro h2
    have := g4 (by simpa using h2)
    rw [List.getLast?_map] at this
    obtain ⟨τ, hτ, he⟩ := Option.map_eq_some_iff.mp this
    rw [hτ]
    congr 1
    omega
  · intro hor
    have := g5 hor
    rw [List.pairwise_map] at this
    exact this.imp fun h => by exact_mod_cast h

theorem trueBase_of_path {L : M3 K} {V : K} {u : ℕ → ℕ → V3 K} {fw atoms : List ℕ} {F : ℕ} {t : ℕ → K} {taus : List ℕ}
    {B : Base K} (h : PathBase L V u fw atoms F t taus B) (hs : taus.Pairwise (· < ·)) : TrueBase L V u fw atoms F (-1) t taus B :=
  ⟨hs, h.range, fun hF => by omega, h.volume, h.deltaT, h.windows⟩

/-- **C103 (MSD), what holds.** For any bounds with `min_dt ≤ max_dt`, any number and spacing of intervals, the analysed intervals are those
asked for (between `min_dt` and `max_dt`, both included, rounded down to whole steps), and at each reported time the reported MSD is the
average along the true path over windows of that length.  Missing: with `max_dt < min_dt` times and values are mismatched
(`C103_violated`). -/
theorem C103_msd_partial (E : Num K) (P : Params K) (S : Select K) (sy : List String) (atoms fw : List ℕ) (hS : Picks S sy atoms fw)
    (F m M : ℕ) (hF : 2 ≤ F) (hG : UserGrid E P F m M) (C : ℕ → M3 K) (V : ℕ → K) (s x : ℕ → ℕ → V3 K)
    (hs : StoredIn F sy.length C s x) (sq : K → K) (o : Oracle K G) (U : UncParams K) (hblock : U.opt.block = false) (hsub : U.sub = 1)
    (g g' : G) (Z : Analyzer K) (base : PyM (Base K)) (unit : K)
    (hbase : ReadFrames E P S (cellFrames F sy C V s) (cellUniverse F sy C V s) base unit)
    (h : diffusionAnalyzer sq o g U base = .ok (Z, g')) :
    ∃ taus : List ℕ, Asked F m M taus ∧ Z.volume = some (V 0) ∧
      Z.diff.n = (resolved atoms.length F taus).map (reportedMsd (axesOf U.dimension) unitCell x fw atoms F) ∧
      Z.diff.dt = (resolved atoms.length F taus).map fun τ : ℕ => (τ : K) * P.stepSkip.val * P.timeStep.val / unit := by
  obtain ⟨B, hB, rfl, hm⟩ := diffusion_inv h
  obtain ⟨taus, ha, -, ht⟩ := grid_base hS hF hG hs hbase hB
  exact ⟨taus, ha, ht.volume, msd_of_path ht ha.sorted hblock hsub hm⟩

/-- **C103 (MSTD), what holds.** The same for the total displacement, if the intervals are distinct: logarithmic spacing, or no more
intervals than there are whole steps from `min_dt` to `max_dt` (C08). -/
theorem C103_mstd_partial (E : Num K) (P : Params K) (S : Select K) (sy : List String) (atoms fw : List ℕ) (hS : Picks S sy atoms fw)
    (F m M : ℕ) (hF : 2 ≤ F) (hG : UserGrid E P F m M) (C : ℕ → M3 K) (V : ℕ → K) (s x : ℕ → ℕ → V3 K)
    (hs : StoredIn F sy.length C s x) (sq : K → K) (o : Oracle K G) (U : UncParams K) (hblock : U.opt.block = false) (hsub : U.sub = 1)
    (g g' : G) (Z : Analyzer K) (base : PyM (Base K)) (unit : K)
    (hbase : ReadFrames E P S (cellFrames F sy C V s) (cellUniverse F sy C V s) base unit)
    (hdis : P.spacing = "logarithmic" ∨ P.nSteps ≤ (M : ℤ) - m + 1) (h : jumpAnalyzer sq o g U base = .ok (Z, g')) :
    ∃ taus half : List ℕ, Asked F m M taus ∧ Z.volume = some (V 0) ∧
      half = (resolved atoms.length F taus).take ((resolved atoms.length F taus).length / 2) ∧
      Z.diff.n = half.map (reportedTotal (axesOf U.dimension) unitCell x fw atoms (fun _ => 1) F) ∧
      Z.diff.dt = half.map fun τ : ℕ => (τ : K) * P.stepSkip.val * P.timeStep.val / unit := by
  obtain ⟨B, hB, rfl, hm⟩ := jump_inv h
  obtain ⟨taus, ha, hd, ht⟩ := grid_base hS hF hG hs hbase hB
  exact ⟨taus, _, ha, ht.volume, rfl, mstd_of_parsed (trueBase_of_path ht (hd hdis)) hblock hsub hm⟩

/-- **C103 (MSCD), what holds.** -/
theorem C103_mscd_partial (E : Num K) (P : Params K) (S : Select K) (sy : List String) (atoms fw : List ℕ) (hS : Picks S sy atoms fw)
    (F m M : ℕ) (hF : 2 ≤ F) (hG : UserGrid E P F m M) (C : ℕ → M3 K) (V : ℕ → K) (s x : ℕ → ℕ → V3 K)
    (hs : StoredIn F sy.length C s x) (sq : K → K) (o : Oracle K G) (U : UncParams K) (hblock : U.opt.block = false) (hsub : U.sub = 1)
    (g g' : G) (Z : Analyzer K) (base : PyM (Base K)) (unit : K)
    (hbase : ReadFrames E P S (cellFrames F sy C V s) (cellUniverse F sy C V s) base unit)
    (hdis : P.spacing = "logarithmic" ∨ P.nSteps ≤ (M : ℤ) - m + 1) (charge : Charge K)
    (hq : ∀ l, charge = .array l → l.length = atoms.length) (h : conductivityAnalyzer sq o g U charge base = .ok (Z, g')) :
    ∃ taus half : List ℕ, Asked F m M taus ∧ Z.volume = some (V 0) ∧
      half = (resolved atoms.length F taus).take ((resolved atoms.length F taus).length / 2) ∧
      Z.diff.n = half.map (reportedTotal Finset.univ unitCell x fw atoms charge.of F) ∧
      Z.diff.dt = half.map fun τ : ℕ => (τ : K) * P.stepSkip.val * P.timeStep.val / unit := by
  obtain ⟨B, hB, rfl, hm⟩ := conductivity_inv h
  obtain ⟨taus, ha, hd, ht⟩ := grid_base hS hF hG hs hbase hB
  exact ⟨taus, _, ha, ht.volume, rfl, mscd_of_parsed (trueBase_of_path ht (hd hdis)) hq hblock hsub hm⟩

/-- The times and values of an analysis. -/
def curveOf (x : PyM (Analyzer ℚ × Unit)) : Option (List ℚ × List ℚ) := x.toOption.map fun z => (z.1.diff.dt, z.1.diff.n)

/-- One Li atom of `exTraj`. -/
def exOne : Select ℚ := ⟨none, .flat ⟨false, [0]⟩, none, none⟩

/-- **C103, violated.** Asked for intervals from 24 down to 6, the analysis is not refused: it reports at 24 the value that belongs to 6
(the interval of 24 is dropped from the displacements for want of two windows, but not from the times, kinisi/parser.py:203-213). -/
theorem C103_violated :
    curveOf (diffusionAnalyzer id (exOracle ℚ) () exUnc (fromAse exNum exParams exOne 1 none (.one exTraj))) =
      some ([6, 12], [189 / 125, 81 / 16]) ∧
    curveOf (diffusionAnalyzer id (exOracle ℚ) () exUnc
      (fromAse exNum { exParams with minDt := some 24, maxDt := some 6 } exOne 1 none (.one exTraj))) = some ([24], [189 / 125]) := by
  constructor <;> decide +kernel

/-! ### Examples -/

/-- Two intervals from 6 to 12. -/
def exAsked : Params ℚ := { exParams with minDt := some 6, maxDt := some 12, nSteps := 2 }

theorem exAsked_grid : UserGrid exNum exAsked 5 1 2 where
  fl := rfl
  pos := by decide +kernel
  sampling := rfl
  minNonneg := by decide +kernel
  maxNonneg := by decide +kernel
  first := by decide +kernel
  last := by decide +kernel
  ordered := by decide
  spacing := .inl rfl

/-- Logarithmic spacing meets `UserGrid` too. -/
example : UserGrid exNum { exAsked with spacing := "logarithmic" } 5 1 2 :=
  { exAsked_grid with
    spacing := .inr ⟨rfl, fun n i _ => ⟨by show ((1 : ℕ) : ℚ) ≤ 1; norm_num, by show (1 : ℚ) ≤ ((2 : ℕ) : ℚ); norm_num⟩⟩ }

/-- Atoms in a fixed cell are a special case of `StoredIn`. -/
theorem exTrue_stored : StoredIn 5 3 (fun _ => exBox) exTrue fun i j => cart exBox (exTrue i j) := by
  intro i hi j hj
  refine ⟨⟨fun k => exTrue i (j + 1) k - exTrue i j k, exTrue_half i hi j hj, fun l => ?_⟩, 0, fun l => ?_⟩
  · simp only [cart, ← Finset.sum_sub_distrib, sub_mul]
  · simp [cart]

/-- The three theorems `C103` for the intervals `exAsked`, read with pymatgen, ASE and MDAnalysis. -/
example : (∃ Z taus, diffusionAnalyzer id (exOracle ℚ) () exUnc (fromPymatgen exNum exAsked exSelect 1 none
      (.one (cellFrames 5 ["Li", "O", "Li"] (fun _ => exBox) (fun _ => 1000) exTrue))) = .ok (Z, ()) ∧ Asked 5 1 2 taus ∧
      Z.diff.dt = (resolved 2 5 taus).map fun τ : ℕ => (τ : ℚ) * 3 * 2 / 1000) ∧
    (∃ Z taus, jumpAnalyzer id (exOracle ℚ) () exUnc (fromAse exNum exAsked exSelect 1 none
      (.one (cellFrames 5 ["Li", "O", "Li"] (fun _ => exBox) (fun _ => 1000) exTrue))) = .ok (Z, ()) ∧ Asked 5 1 2 taus) ∧
    ∃ Z taus, conductivityAnalyzer id (exOracle ℚ) () exUnc (.scalar 2) (fromUniverse exNum exAsked exSelect 1 1 none
      (.one (cellUniverse 5 ["Li", "O", "Li"] (fun _ => exBox) (fun _ => 1000) exTrue))) = .ok (Z, ()) ∧ Asked 5 1 2 taus := by
  refine ⟨?_, ?_, ?_⟩
  · obtain ⟨⟨Z, ⟨⟩⟩, hZ⟩ := ok_of_isSome (x := diffusionAnalyzer id (exOracle ℚ) () exUnc (fromPymatgen exNum exAsked exSelect 1 none
      (.one (cellFrames 5 ["Li", "O", "Li"] (fun _ => exBox) (fun _ => 1000) exTrue)))) (by decide +kernel)
    obtain ⟨taus, ha, -, -, hd⟩ := C103_msd_partial exNum exAsked exSelect _ _ _ exPicks 5 1 2 (by decide) exAsked_grid _ _ _ _ exTrue_stored id
      (exOracle ℚ) exUnc rfl rfl () () Z _ 1000 (.inr (.inl ⟨rfl, rfl⟩)) hZ
    exact ⟨Z, taus, hZ, ha, hd⟩
  · obtain ⟨⟨Z, ⟨⟩⟩, hZ⟩ := ok_of_isSome (x := jumpAnalyzer id (exOracle ℚ) () exUnc (fromAse exNum exAsked exSelect 1 none
      (.one (cellFrames 5 ["Li", "O", "Li"] (fun _ => exBox) (fun _ => 1000) exTrue)))) (by decide +kernel)
    obtain ⟨taus, -, ha, -⟩ := C103_mstd_partial exNum exAsked exSelect _ _ _ exPicks 5 1 2 (by decide) exAsked_grid _ _ _ _ exTrue_stored id
      (exOracle ℚ) exUnc rfl rfl () () Z _ 1 (.inl ⟨rfl, rfl⟩) (.inr (by decide)) hZ
    exact ⟨Z, taus, hZ, ha⟩
  · obtain ⟨⟨Z, ⟨⟩⟩, hZ⟩ := ok_of_isSome (x := conductivityAnalyzer id (exOracle ℚ) () exUnc (.scalar 2) (fromUniverse exNum exAsked exSelect 1 1 none
      (.one (cellUniverse 5 ["Li", "O", "Li"] (fun _ => exBox) (fun _ => 1000) exTrue)))) (by decide +kernel)
    obtain ⟨taus, -, ha, -⟩ := C103_mscd_partial exNum exAsked exSelect _ _ _ exPicks 5 1 2 (by decide) exAsked_grid _ _ _ _ exTrue_stored id
      (exOracle ℚ) exUnc rfl rfl () () Z _ 1 (.inr (.inr ⟨rfl, rfl⟩)) (.inr (by decide)) (.scalar 2) (fun l h => by cases h) hZ
    exact ⟨Z, taus, hZ, ha⟩

end Kinisi
