import Verif.Props.Selected
import Verif.Props.Grids

/-!
# C79 for intervals that the user has chosen
-/

set_option linter.unusedSectionVars false
set_option linter.unusedVariables false

namespace Kinisi
open Spec
variable {K : Type} [Field K] [LinearOrder K] [IsStrictOrderedRing K] [FloorRing K] {G : Type}

theorem grid_runs {E : Num K} {P : Params K} {F m M : ℕ} (hG : UserGrid E P F m M) (hn : 1 ≤ P.nSteps) (hmF : m < F) {ss : PyNum K}
    (hss : ss.val = P.stepSkip.val) :
    ∃ l, initTimeIntervals id E.geo F P.timeStep ss P.minDt P.maxDt P.nSteps P.spacing = .ok l ∧ (m : ℤ) ∈ l := by
  obtain ⟨hfl, hpos, -, h0, h1, hm, hM, hmM, hsp⟩ := hG
  rw [← hss] at hpos h0 h1 hm hM
  have e1 : minDtOf id P.timeStep ss P.minDt = P.minDt.getD (ss.val * P.timeStep.val) := by
    cases P.minDt with
    | none => simp [minDtOf, PyNum.val_mul_id]
    | some x => rfl
  have e2 : maxDtOf id F P.timeStep ss P.maxDt = P.maxDt.getD ((F : K) * (ss.val * P.timeStep.val)) := by
    cases P.maxDt with
    | none => simp [maxDtOf, PyNum.val_mul_id]; simp [PyNum.val]
    | some x => rfl
  generalize hmin : P.minDt.getD (ss.val * P.timeStep.val) = mn at e1 h0 hm
  generalize hmax : P.maxDt.getD ((F : K) * (ss.val * P.timeStep.val)) = mx at e2 h1 hM
  have s1 := stepsOf_id (ts := P.timeStep) hpos h0
  have s2 := stepsOf_id (ts := P.timeStep) hpos h1
  rw [← hM] at s2
  have hn0 : 0 ≤ ⌊mn / (ss.val * P.timeStep.val)⌋ := Int.floor_nonneg.2 (div_nonneg h0 hpos.le)
  unfold initTimeIntervals
  dsimp only
  rw [e1, e2, s1]
  simp only [bind, Except.bind]
  have hk := hm
  generalize hkk : ⌊mn / (ss.val * P.timeStep.val)⌋ = k at *
  rw [if_neg (by omega)]
  have ha : (m : ℤ) = if k = 0 then 1 else k := by split_ifs <;> omega
  have hN1 : 1 ≤ (if P.nSteps > (F : ℤ) - k + 1 then (F : ℤ) - k + 1 else P.nSteps) := by split_ifs <;> omega
  generalize (if P.nSteps > (F : ℤ) - k + 1 then (F : ℤ) - k + 1 else P.nSteps) = N at hN1
  obtain ⟨c, rfl⟩ := Int.eq_ofNat_of_zero_le (show 0 ≤ N by omega)
  rcases hsp with hsp | ⟨hsp, hgeo⟩
  · rw [hsp]
    rcases Nat.lt_or_ge c 2 with hc | hc
    · obtain rfl : c = 1 := by omega
      obtain ⟨d1, -, -⟩ := C07_degenerate_counts id E.geo P.timeStep ss _ _ _ _ s1 s2
      exact ⟨_, by rw [show ((1 : ℕ) : ℤ) = 1 by rfl, d1], by rw [← ha]; simp⟩
    · obtain ⟨l, hl, -, g0, -⟩ := C07_linear_intervals E.geo P.timeStep ss _ rfl hpos _ _ h0 h1 m M
        (by rw [hkk]; exact hm) hM (by exact_mod_cast hmM) c hc
      exact ⟨l, hl, List.mem_of_getElem? g0⟩
  · rw [hsp]
    obtain ⟨l, hl, -, -, -, ga, -⟩ := C10_logarithmic_intervals id E.geo P.timeStep ss _ _ k M m s1 s2 ha
      (by omega) (by exact_mod_cast hmM) c (by omega) (fun i hi => by exact_mod_cast hgeo c i hi)
    exact ⟨l, hl, ga⟩

theorem UserGrid.onGrid {E : Num K} {P : Params K} {F m M N : ℕ} (hG : UserGrid E P F m M) (hn : 1 ≤ P.nSteps)
    (hd : P.spacing = "logarithmic" ∨ P.nSteps ≤ (M : ℤ) - m + 1) (hmF : m < F) (hMF : M ≤ F) (hw : 2 ≤ N * (F / m)) {ss : PyNum K}
    (hss : ss.val = P.stepSkip.val) : OnGrid E { P with stepSkip := ss } F N := by
  obtain ⟨l, hl, hml⟩ := grid_runs hG hn hmF hss
  obtain ⟨-, hr, -, -, hs⟩ := grid_intervals hG hss hl
  have hs := hs hd
  have hm1 : 1 ≤ m := by have := hG.first; omega
  have hcast : (l.map Int.toNat).map (fun τ : ℕ => (τ : ℤ)) = l := by
    rw [List.map_map]
    conv_rhs => rw [← List.map_id l]
    apply List.map_congr_left
    intro τ hτ
    have := (hr τ hτ).1
    simp only [Function.comp, id]
    omega
  refine ⟨hG.fl, hG.sampling, l.map Int.toNat, by rw [hcast]; exact hl, ⟨m, List.mem_map.mpr ⟨m, hml, by simp⟩, hw⟩, ?_, ?_⟩
  · intro τ hτ
    obtain ⟨x, hx, rfl⟩ := List.mem_map.mp hτ
    have := hr x hx
    omega
  · rw [List.pairwise_map]
    exact hs.imp_of_mem fun {a b} ha hb hab => by have := hr a ha; have := hr b hb; omega

/-- **C79 (chosen intervals), what holds.** Two or more frames, whose cells may change but have a volume, in any of the three formats; the
atoms are named in any way, and at least one is named; `min_dt`, `max_dt`, `n_steps` and `spacing` ask for at least one interval, from `m`
to `M` frames, `m < F` and `M ≤ F`, no more than there are (for logarithmic spacing any number), and the named atoms have two disjoint
windows of `m` frames; a memory limit that admits `F²` windows: all three analyzers are built.  Missing: duplicated intervals (C08), a
framework given as a tuple (C71), and for pymatgen a time step and step skip that are both integers (C19). -/
theorem C79_bounds_partial (E : Num K) (P : Params K) (S : Select K) (sy : List String) (atoms fw : List ℕ) (hS : Picks S sy atoms fw)
    (hne : atoms ≠ []) (ht : ∀ f, S.framework = some f → f.isTuple = false) (F m M : ℕ) (hG : UserGrid E P F m M) (hn : 1 ≤ P.nSteps)
    (hdis : P.spacing = "logarithmic" ∨ P.nSteps ≤ (M : ℤ) - m + 1) (hmF : m < F) (hMF : M ≤ F) (hw : 2 ≤ atoms.length * (F / m))
    (C : ℕ → M3 K) (hC : ∀ j < F, NonSingular (C j)) (V : ℕ → K) (s : ℕ → ℕ → V3 K)
    (hmem : ((3 * atoms.length * F * F * P.itemsize : ℕ) : K) ≤ P.memoryLimit * 10 ^ 9)
    (base : PyM (Base K)) (unit : K) (hbase : ReadFrames E P S (cellFrames F sy C V s) (cellUniverse F sy C V s) base unit)
    (hi : unit = 1000 → (P.timeStep.isInt && P.stepSkip.isInt) = false) (sq : K → K) (o : Oracle K G) (g : G) (U : UncParams K)
    (ho : StatisticsRun o U.opt) (hsub : 1 ≤ U.sub) (hd : U.dimension.toLower ∈ acceptedDims) :
    AllAnalyzed atoms.length sq o g U base := by
  have hm1 : 1 ≤ m := by have := hG.first; omega
  have hU := cellUniverse_ok (sy := sy) hC (V := V) (s := s)
  obtain ⟨f0, rest, hwf, hlen, hall⟩ := cellFrames_cons (show 2 ≤ F by omega) sy C V s
  rw [hwf] at hbase hU
  subst hlen
  have hval : (P.stepSkip.mul E.fl (.int 1)).val = P.stepSkip.val := by
    rw [hG.fl, PyNum.val_mul_id]; simp [PyNum.val]
  obtain ⟨B, hB, hu⟩ := frames_ok (hG.onGrid hn hdis hmF hMF hw rfl) (hG.onGrid hn hdis hmF hMF hw hval) (List.length_pos_iff.mpr hne)
    (picks_selects hS hne ht fun f hf => ⟨(hall f hf).1, (hall f hf).2.1⟩)
    (fun f hf => by obtain ⟨j, hj, he⟩ := (hall f hf).2.2; rw [he]; exact hC j hj) hmem hU hbase hi
  exact allAnalyzed_of_usable hu hB ho hsub hd

/-- Two intervals from 6 to 12 of a trajectory with five frames, read by all three readers. -/
example (base : PyM (Base ℚ)) (unit : ℚ) (hbase : ReadFrames exNum exAsked exSelect (cellFrames 5 ["Li", "O", "Li"] (fun _ => exBox)
    (fun _ => 1000) exTrue) (cellUniverse 5 ["Li", "O", "Li"] (fun _ => exBox) (fun _ => 1000) exTrue) base unit) :
    AllAnalyzed 2 id (exOracle ℚ) () exUnc base :=
  C79_bounds_partial exNum exAsked exSelect ["Li", "O", "Li"] [0, 2] [1] (.species ["Li"] rfl rfl) (by decide) (by intro f hf; cases hf) 5 1 2
    exAsked_grid (by decide) (.inr (by decide)) (by decide) (by decide) (by decide) (fun _ => exBox) (fun _ _ => exBox_nonsingular)
    (fun _ => 1000) exTrue (by decide +kernel) base unit hbase (fun _ => rfl) id (exOracle ℚ) () exUnc (.off rfl rfl) le_rfl (by decide +kernel)

end Kinisi
