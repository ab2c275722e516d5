import Verif.Props.EndToEndTotal
import Verif.Props.Ngp

/-!
# C98: the displacement distributions and the non-Gaussian parameter of a trajectory
-/

set_option linter.unusedSectionVars false
set_option linter.unusedVariables false

namespace Kinisi
open Spec
variable {K : Type} [Field K] [LinearOrder K] [IsStrictOrderedRing K] [FloorRing K] {G : Type}

theorem lengthSq_nonneg (A : Finset (Fin 3)) (v : V3 K) : 0 ≤ lengthSq A v := Finset.sum_nonneg fun x _ => sq_nonneg _

theorem reportedSquares_nonneg {A : Finset (Fin 3)} {L : M3 K} {u : ℕ → ℕ → V3 K} {fw atoms : List ℕ} {F τ : ℕ} :
    ∀ x ∈ reportedSquares A L u fw atoms F τ, 0 ≤ x := by
  intro x hx
  unfold reportedSquares at hx
  obtain ⟨i, -, hx⟩ := List.mem_flatMap.mp hx
  rcases List.mem_cons.mp hx with rfl | hx
  · exact lengthSq_nonneg _ _
  · obtain ⟨s, -, rfl⟩ := List.mem_map.mp hx
    exact lengthSq_nonneg _ _

theorem reportedSquares_length {A : Finset (Fin 3)} {L : M3 K} {u : ℕ → ℕ → V3 K} {fw atoms : List ℕ} {F τ : ℕ} :
    (reportedSquares A L u fw atoms F τ).length = atoms.length * (F - τ + 1) := by
  unfold reportedSquares
  rw [List.length_flatMap]
  simp

/-- The mean of the squared displacements is the reported MSD. -/
theorem reportedSquares_mean {A : Finset (Fin 3)} {L : M3 K} {u : ℕ → ℕ → V3 K} {fw atoms : List ℕ} {F τ : ℕ} :
    (reportedSquares A L u fw atoms F τ).sum / ((reportedSquares A L u fw atoms F τ).length : K) = reportedMsd A L u fw atoms F τ := by
  rw [reportedSquares_length]
  unfold reportedSquares reportedMsd
  rw [List.flatMap_def, List.sum_flatten, List.map_map, Nat.cast_mul]
  simp only [sum_range_list, Function.comp_def, List.sum_cons]

theorem dSquared_true {L : M3 K} {u : ℕ → ℕ → V3 K} {fw atoms : List ℕ} {F τ : ℕ} {a : Arr3 K} {axes : List (Fin 3)}
    (hn : axes.Nodup) (h : TrueWindows L u fw atoms F τ a) :
    dSquared axes a = reportedSquares axes.toFinset L u fw atoms F τ := by
  obtain ⟨e0, e1, e2⟩ := h
  unfold dSquared reportedSquares
  rw [e0, e1]
  have hl : atoms = (List.range atoms.length).map fun i => atoms.getD i 0 := by
    apply List.ext_getElem
    · simp
    · intro i h1 h2
      simp [h1]
  conv_rhs => rw [hl]
  rw [List.flatMap_map]
  apply List.flatMap_congr
  intro i hi
  rw [List.mem_range] at hi
  obtain ⟨f2, f1⟩ := e2 i hi
  have hi' : atoms.getD i 0 = atoms[i] := by simp [hi]
  rw [hi', List.range_succ_eq_map, List.map_cons, List.map_map]
  congr 1
  · unfold lengthSq
    rw [sum_axes_list hn]
    exact Finset.sum_congr rfl fun x _ => by rw [f2 x]
  · apply List.map_congr_left
    intro k hk
    rw [List.mem_range] at hk
    unfold lengthSq
    simp only [Function.comp]
    rw [sum_axes_list hn]
    exact Finset.sum_congr rfl fun x _ => by rw [Nat.succ_eq_add_one, f1 k hk x]

theorem ngpCalculation_eq {l : List K} (hl : 2 ≤ l.length) (h0 : ∀ x ∈ l, 0 ≤ x) : ngpCalculation l = ngpOf l := by
  have hc : (l.length : K) ≠ 0 := by exact_mod_cast (by omega : l.length ≠ 0)
  unfold ngpCalculation ngpOf
  rw [npMean_eq (by rw [List.length_map]; exact hl), npMean_eq hl, List.length_map]
  simp only [Option.map_some, npDiv, Option.bind_some]
  have hz : (l.sum / (l.length : K)) ^ 2 * 5 = 0 ↔ ∀ x ∈ l, x = 0 := by
    rw [mul_eq_zero, or_iff_left (by norm_num), pow_eq_zero_iff two_ne_zero, div_eq_zero_iff, or_iff_left hc]
    constructor
    · intro hs x hx
      exact le_antisymm ((List.single_le_sum h0 x hx).trans hs.le) (h0 x hx)
    · intro hs
      exact List.sum_eq_zero hs
  by_cases h : ∀ x ∈ l, x = 0
  · rw [if_pos (hz.mpr h), if_pos h]; rfl
  · rw [if_neg (fun hh => h (hz.mp hh)), if_neg h]
    simp only [Option.map_some, Option.some.injEq, sq]
    rw [mul_comm _ (3 : K), mul_comm _ (5 : K)]

/-- What the loop has recorded about the displacements. -/
theorem recorded_lengths {sq : K → K} {o : Oracle K G} {opt : BootOpts K} {Q : Quantity K} {nO : List K} {b0 b : Boot K} {P : ℕ}
    (hrec : Recorded sq o opt Q nO b0 P b) {L : M3 K} {u : ℕ → ℕ → V3 K} {fw atoms : List ℕ} {F : ℕ} {kept : List ℕ}
    (hf : List.Forall₂ (TrueWindows L u fw atoms F) kept b0.displacements) (hn : b0.axes.Nodup)
    (h2 : ∀ i < P, ∀ a, b0.displacements[i]? = some a → 2 ≤ a.n0 * a.n1) :
    b.euclid = (kept.take P).map (fun τ => (reportedSquares b0.axes.toFinset L u fw atoms F τ).map sq) ∧
    b.ngp = (kept.take P).map (fun τ => ngpOf (reportedSquares b0.axes.toFinset L u fw atoms F τ)) := by
  have hlen := hf.length_eq
  have key : ∀ i < P, ∃ τ, kept[i]? = some τ ∧ b.euclid[i]? = some ((reportedSquares b0.axes.toFinset L u fw atoms F τ).map sq) ∧
      b.ngp[i]? = some (ngpOf (reportedSquares b0.axes.toFinset L u fw atoms F τ)) := by
    intro i hi
    obtain ⟨a, l, m, w, t, e1, e2, e3, e4, e5, e6, e7, e8, e9, e10, e11⟩ := hrec.entry i hi
    obtain ⟨hi', -⟩ := List.getElem?_eq_some_iff.mp e1
    have hw := (List.forall₂_iff_get.mp hf).2 i (by omega) hi'
    rw [List.getElem?_eq_getElem hi'] at e1
    have ea := Option.some.inj e1
    simp only [List.get_eq_getElem] at hw
    rw [ea] at hw
    have ed := dSquared_true hn hw
    refine ⟨kept[i], List.getElem?_eq_getElem (by omega), by rw [e11, ed], ?_⟩
    rw [e9, ngpCalculation_eq (by rw [dSquared_length]; exact h2 i hi a (by rw [List.getElem?_eq_getElem hi', ea])), ed]
    rw [ed]
    exact reportedSquares_nonneg
  constructor
  · apply List.ext_getElem?
    intro i
    by_cases hi : i < P
    · obtain ⟨τ, h1, h2, h3⟩ := key i hi
      rw [h2, List.getElem?_map, List.getElem?_take, if_pos hi, h1]; rfl
    · rw [List.getElem?_eq_none (by rw [hrec.le]; omega), List.getElem?_eq_none (by simp; omega)]
  · apply List.ext_getElem?
    intro i
    by_cases hi : i < P
    · obtain ⟨τ, h1, h2, h3⟩ := key i hi
      rw [h3, List.getElem?_map, List.getElem?_take, if_pos hi, h1]; rfl
    · rw [List.getElem?_eq_none (by rw [hrec.lg]; omega), List.getElem?_eq_none (by simp; omega)]

/-- The attributes `dr` and `ngp` of an analyzer whose entries belong to the intervals `kept`. -/
def TrueLengths (sq : K → K) (A : Finset (Fin 3)) (L : M3 K) (u : ℕ → ℕ → V3 K) (fw atoms : List ℕ) (F : ℕ) (t : ℕ → K)
    (kept : List ℕ) (b : Boot K) : Prop :=
  b.dt = kept.map t ∧
  b.euclid = kept.map (fun τ => (reportedSquares A L u fw atoms F τ).map sq) ∧
  b.ngp = kept.map fun τ => ngpOf (reportedSquares A L u fw atoms F τ)

theorem resolved_two {N F : ℕ} {taus : List ℕ} (h1 : ∀ τ ∈ taus, 1 ≤ τ ∧ τ ≤ F) :
    ∀ τ ∈ resolved N F taus, 2 ≤ N * (F - τ + 1) := by
  intro τ hτ
  rw [resolved, List.mem_filter] at hτ
  have := disjoint_le_windows (h1 τ hτ.1).1 (h1 τ hτ.1).2
  have h2 : 2 ≤ N * (F / τ) := by simpa using hτ.2
  exact h2.trans (Nat.mul_le_mul_left _ this)

theorem windows_two {L : M3 K} {V : K} {u : ℕ → ℕ → V3 K} {fw atoms : List ℕ} {F : ℕ} {nSteps : ℤ} {t : ℕ → K} {taus : List ℕ}
    {B : Base K} (hB : TrueBase L V u fw atoms F nSteps t taus B) : ∀ (i : ℕ) (a : Arr3 K), B.disp3d[i]? = some a → 2 ≤ a.n0 * a.n1 := by
  intro i a ha
  obtain ⟨hi, rfl⟩ := List.getElem?_eq_some_iff.mp ha
  have hl := hB.windows.length_eq
  have hw := (List.forall₂_iff_get.mp hB.windows).2 i (by omega) hi
  simp only [List.get_eq_getElem] at hw
  rw [hw.1, hw.2.1]
  exact resolved_two hB.range _ (List.getElem_mem _)

/-- The lengths of a parsed trajectory, for the three classes. -/
theorem msd_lengths {L : M3 K} {V : K} {u : ℕ → ℕ → V3 K} {fw atoms : List ℕ} {F : ℕ} {nSteps : ℤ} {t : ℕ → K} {taus : List ℕ}
    {B : Base K} (hB : TrueBase L V u fw atoms F nSteps t taus B)
    {sq : K → K} {o : Oracle K G} {U : UncParams K} (hblock : U.opt.block = false) (hsub : U.sub = 1)
    {g g' : G} {b : Boot K}
    (h : msdBootstrap sq o U.opt g B.deltaT B.disp3d B.nO U.sub U.dimension = .ok (b, g')) :
    TrueLengths sq (axesOf U.dimension) L u fw atoms F t (resolved atoms.length F taus) b := by
  obtain ⟨e1, e2⟩ := msd_of_parsed hB hblock hsub h
  obtain ⟨b0, P, hb0, hP, hrec, -, -⟩ := msdBootstrap_inv h
  obtain ⟨ds, dts, sel, d0, h1, h2, h3, h4, rfl⟩ := bootInit_inv hb0
  obtain ⟨hn, hA, -⟩ := dimensionSlice_axes h3
  rw [hsub, pyStride_one] at h1
  obtain rfl := Except.ok.inj h1
  obtain ⟨f1, f2⟩ := recorded_lengths hrec hB.windows hn (fun i _ => windows_two hB i)
  have hl := congrArg List.length e1
  rw [hrec.ln, List.length_map] at hl
  rw [hl, List.take_length] at f1 f2
  dsimp only at f1 f2
  rw [hA] at f1 f2
  exact ⟨e2, f1, f2⟩

theorem mstd_lengths {L : M3 K} {V : K} {u : ℕ → ℕ → V3 K} {fw atoms : List ℕ} {F : ℕ} {nSteps : ℤ} {t : ℕ → K} {taus : List ℕ}
    {B : Base K} (hB : TrueBase L V u fw atoms F nSteps t taus B)
    {sq : K → K} {o : Oracle K G} {U : UncParams K} (hblock : U.opt.block = false) (hsub : U.sub = 1)
    {g g' : G} {b : Boot K}
    (h : mstdBootstrap sq o U.opt g B.deltaT B.disp3d B.nO U.sub U.dimension = .ok (b, g')) :
    TrueLengths sq (axesOf U.dimension) L u fw atoms F t
      ((resolved atoms.length F taus).take ((resolved atoms.length F taus).length / 2)) b := by
  obtain ⟨e1, e2⟩ := mstd_of_parsed hB hblock hsub h
  obtain ⟨b0, P, hb0, hP, hrec, -, -⟩ := mstdBootstrap_inv h
  obtain ⟨ds, dts, sel, d0, h1, h2, h3, h4, rfl⟩ := bootInit_inv hb0
  obtain ⟨hn, hA, -⟩ := dimensionSlice_axes h3
  rw [hsub, pyStride_one] at h1
  obtain rfl := Except.ok.inj h1
  obtain ⟨f1, f2⟩ := recorded_lengths hrec hB.windows hn (fun i _ => windows_two hB i)
  have hl := congrArg List.length e1
  rw [hrec.ln, List.length_map, List.length_take, min_eq_left (Nat.div_le_self _ _)] at hl
  rw [hl] at f1 f2
  dsimp only at f1 f2
  rw [hA] at f1 f2
  exact ⟨e2, f1, f2⟩

theorem mscd_lengths {L : M3 K} {V : K} {u : ℕ → ℕ → V3 K} {fw atoms : List ℕ} {F : ℕ} {nSteps : ℤ} {t : ℕ → K} {taus : List ℕ}
    {B : Base K} (hB : TrueBase L V u fw atoms F nSteps t taus B) {charge : Charge K}
    (hq : ∀ l, charge = .array l → l.length = atoms.length)
    {sq : K → K} {o : Oracle K G} {U : UncParams K} (hblock : U.opt.block = false) (hsub : U.sub = 1)
    {g g' : G} {b : Boot K}
    (h : mscdBootstrap sq o U.opt g B.deltaT B.disp3d charge B.nO U.sub U.dimension = .ok (b, g')) :
    TrueLengths sq (axesOf U.dimension) L u fw atoms F t
      ((resolved atoms.length F taus).take ((resolved atoms.length F taus).length / 2)) b := by
  obtain ⟨e1, e2⟩ := mscd_of_parsed hB hq hblock hsub h
  obtain ⟨b0, P, hb0, hP, hrec, -, -⟩ := mscdBootstrap_inv h
  obtain ⟨ds, dts, sel, d0, h1, h2, h3, h4, rfl⟩ := bootInit_inv hb0
  obtain ⟨hn, hA, -⟩ := dimensionSlice_axes h3
  rw [hsub, pyStride_one] at h1
  obtain rfl := Except.ok.inj h1
  obtain ⟨f1, f2⟩ := recorded_lengths hrec hB.windows hn (fun i _ => windows_two hB i)
  have hl := congrArg List.length e1
  rw [hrec.ln, List.length_map, List.length_take, min_eq_left (Nat.div_le_self _ _)] at hl
  rw [hl] at f1 f2
  dsimp only at f1 f2
  rw [hA] at f1 f2
  exact ⟨e2, f1, f2⟩

/-! ## C98 -/

/-- **C98, diffusion.** For atoms that move by less than half a cell per frame, stored in any images and read from any of the three
formats: entry `k` of `dr` holds the true length of the displacement of every chosen atom over every window of the interval `dt[k]`, and
entry `k` of `ngp` is the non-Gaussian parameter of these. -/
theorem C98_diffusion (E : Num K) (P : Params K) (S : Select K) (sy : List String) (atoms fw : List ℕ) (hS : Picks S sy atoms fw)
    (hP : DefaultGrid E P) (F : ℕ) (hF : 2 ≤ F) (L : M3 K) (V : K) (u : ℕ → ℕ → V3 K) (m : ℕ → ℕ → Fin 3 → ℤ)
    (hstep : ∀ i < sy.length, ∀ j, j + 1 < F → HalfCell fun k => u i (j + 1) k - u i j k)
    (sq : K → K) (o : Oracle K G) (U : UncParams K) (hblock : U.opt.block = false) (hsub : U.sub = 1) (g g' : G) (Z : Analyzer K)
    (base : PyM (Base K)) (unit : K) (hbase : ReadFrom E P S F sy L V u m base unit) (h : diffusionAnalyzer sq o g U base = .ok (Z, g')) :
    ∃ taus : List ℕ, taus.Pairwise (· < ·) ∧ (∀ τ ∈ taus, 1 ≤ τ ∧ τ ≤ F) ∧
      ((F : ℤ) ≤ P.nSteps → taus = (List.range F).map fun i => i + 1) ∧
      TrueLengths sq (axesOf U.dimension) L u fw atoms F (fun τ : ℕ => (τ : K) * P.stepSkip.val * P.timeStep.val / unit)
        (resolved atoms.length F taus) Z.diff := by
  obtain ⟨B, hB, rfl, hm⟩ := diffusion_inv h
  obtain ⟨taus, -, ht⟩ := read_base hS hP hF hstep hbase hB
  exact ⟨taus, ht.sorted, ht.range, ht.full, msd_lengths ht hblock hsub hm⟩

/-- **C98, jump diffusion.** The same for the first half of the intervals: `dr` and `ngp` describe the single atoms here as well. -/
theorem C98_jump (E : Num K) (P : Params K) (S : Select K) (sy : List String) (atoms fw : List ℕ) (hS : Picks S sy atoms fw)
    (hP : DefaultGrid E P) (F : ℕ) (hF : 2 ≤ F) (L : M3 K) (V : K) (u : ℕ → ℕ → V3 K) (m : ℕ → ℕ → Fin 3 → ℤ)
    (hstep : ∀ i < sy.length, ∀ j, j + 1 < F → HalfCell fun k => u i (j + 1) k - u i j k)
    (sq : K → K) (o : Oracle K G) (U : UncParams K) (hblock : U.opt.block = false) (hsub : U.sub = 1) (g g' : G) (Z : Analyzer K)
    (base : PyM (Base K)) (unit : K) (hbase : ReadFrom E P S F sy L V u m base unit) (h : jumpAnalyzer sq o g U base = .ok (Z, g')) :
    ∃ taus : List ℕ, taus.Pairwise (· < ·) ∧ (∀ τ ∈ taus, 1 ≤ τ ∧ τ ≤ F) ∧
      ((F : ℤ) ≤ P.nSteps → taus = (List.range F).map fun i => i + 1) ∧
      TrueLengths sq (axesOf U.dimension) L u fw atoms F (fun τ : ℕ => (τ : K) * P.stepSkip.val * P.timeStep.val / unit)
        ((resolved atoms.length F taus).take ((resolved atoms.length F taus).length / 2)) Z.diff := by
  obtain ⟨B, hB, rfl, hm⟩ := jump_inv h
  obtain ⟨taus, -, ht⟩ := read_base hS hP hF hstep hbase hB
  exact ⟨taus, ht.sorted, ht.range, ht.full, mstd_lengths ht hblock hsub hm⟩

/-- **C98, conductivity.** The same; the charges do not enter, and unlike the MSCD (C31) `dr` and `ngp` do respect `dimension`. -/
theorem C98_conductivity (E : Num K) (P : Params K) (S : Select K) (sy : List String) (atoms fw : List ℕ) (hS : Picks S sy atoms fw)
    (hP : DefaultGrid E P) (F : ℕ) (hF : 2 ≤ F) (L : M3 K) (V : K) (u : ℕ → ℕ → V3 K) (m : ℕ → ℕ → Fin 3 → ℤ)
    (hstep : ∀ i < sy.length, ∀ j, j + 1 < F → HalfCell fun k => u i (j + 1) k - u i j k)
    (sq : K → K) (o : Oracle K G) (U : UncParams K) (hblock : U.opt.block = false) (hsub : U.sub = 1) (g g' : G) (Z : Analyzer K)
    (base : PyM (Base K)) (unit : K) (hbase : ReadFrom E P S F sy L V u m base unit)
    (charge : Charge K) (hq : ∀ l, charge = .array l → l.length = atoms.length)
    (h : conductivityAnalyzer sq o g U charge base = .ok (Z, g')) :
    ∃ taus : List ℕ, taus.Pairwise (· < ·) ∧ (∀ τ ∈ taus, 1 ≤ τ ∧ τ ≤ F) ∧
      ((F : ℤ) ≤ P.nSteps → taus = (List.range F).map fun i => i + 1) ∧
      TrueLengths sq (axesOf U.dimension) L u fw atoms F (fun τ : ℕ => (τ : K) * P.stepSkip.val * P.timeStep.val / unit)
        ((resolved atoms.length F taus).take ((resolved atoms.length F taus).length / 2)) Z.diff := by
  obtain ⟨B, hB, rfl, hm⟩ := conductivity_inv h
  obtain ⟨taus, -, ht⟩ := read_base hS hP hF hstep hbase hB
  exact ⟨taus, ht.sorted, ht.range, ht.full, mscd_lengths ht hq hblock hsub hm⟩

/-- **C98, consistency.** The mean of the squares of `dr[k]` is the reported MSD of that interval. -/
theorem C98_mean (E : Num K) (P : Params K) (S : Select K) (sy : List String) (atoms fw : List ℕ) (hS : Picks S sy atoms fw)
    (hP : DefaultGrid E P) (F : ℕ) (hF : 2 ≤ F) (L : M3 K) (V : K) (u : ℕ → ℕ → V3 K) (m : ℕ → ℕ → Fin 3 → ℤ)
    (hstep : ∀ i < sy.length, ∀ j, j + 1 < F → HalfCell fun k => u i (j + 1) k - u i j k)
    (sq : K → K) (hsq : IsSqrt sq) (o : Oracle K G) (U : UncParams K) (hblock : U.opt.block = false) (hsub : U.sub = 1) (g g' : G)
    (Z : Analyzer K) (base : PyM (Base K)) (unit : K) (hbase : ReadFrom E P S F sy L V u m base unit)
    (h : diffusionAnalyzer sq o g U base = .ok (Z, g')) :
    Z.diff.n = Z.diff.euclid.map fun r => (r.map fun x => x ^ 2).sum / (r.length : K) := by
  obtain ⟨B, hB, rfl, hm⟩ := diffusion_inv h
  obtain ⟨taus, -, ht⟩ := read_base hS hP hF hstep hbase hB
  obtain ⟨-, e, -⟩ := msd_lengths ht hblock hsub hm
  rw [(msd_of_parsed ht hblock hsub hm).1, e, List.map_map]
  apply List.map_congr_left
  intro τ _
  simp only [Function.comp, List.map_map, List.length_map]
  rw [← reportedSquares_mean]
  congr 2
  conv_lhs => rw [← List.map_id (reportedSquares _ _ _ _ _ _ _)]
  apply List.map_congr_left
  intro x hx
  exact ((hsq x (reportedSquares_nonneg x hx)).2).symm

/-- A trajectory with three intervals (`id` stands for the square root: the lengths are then squared). -/
example : ((diffusionAnalyzer id (exOracle ℚ) () exUnc (fromAse exNum exParams exSelect 1 none
      (.one (wrapped 3 ["Li", "O", "Li"] exBox 1000 exTrue exImages)))).toOption.map fun z => (z.1.diff.euclid, z.1.diff.ngp)) =
    some ([[0, 1 / 25, 9 / 25, 0, 1 / 25, 9 / 25], [1 / 25, 16 / 25, 1 / 25, 16 / 25], [16 / 25, 16 / 25]],
      [some (119 / 250), some (97 / 1445), some (-2 / 5)]) := by
  decide +kernel

/-- `C98_diffusion`, `C98_jump` and `C98_conductivity` for the example trajectory. -/
example : ∃ Z Z' Z'' : Analyzer ℚ,
    diffusionAnalyzer id (exOracle ℚ) () exUnc (fromAse exNum exParams exSelect 1 none
      (.one (wrapped 5 ["Li", "O", "Li"] exBox 1000 exTrue exImages))) = .ok (Z, ()) ∧
    jumpAnalyzer id (exOracle ℚ) () exUnc (fromAse exNum exParams exSelect 1 none
      (.one (wrapped 5 ["Li", "O", "Li"] exBox 1000 exTrue exImages))) = .ok (Z', ()) ∧
    conductivityAnalyzer id (exOracle ℚ) () exUnc (.scalar 2) (fromAse exNum exParams exSelect 1 none
      (.one (wrapped 5 ["Li", "O", "Li"] exBox 1000 exTrue exImages))) = .ok (Z'', ()) ∧
    Z.diff.euclid = (resolved 2 5 [1, 2, 3, 4, 5]).map (fun τ => (reportedSquares Finset.univ exBox exTrue [1] [0, 2] 5 τ).map id) ∧
    Z'.diff.euclid = ((resolved 2 5 [1, 2, 3, 4, 5]).take 2).map (fun τ => (reportedSquares Finset.univ exBox exTrue [1] [0, 2] 5 τ).map id) ∧
    Z''.diff.euclid =
      ((resolved 2 5 [1, 2, 3, 4, 5]).take 2).map (fun τ => (reportedSquares Finset.univ exBox exTrue [1] [0, 2] 5 τ).map id) := by
  obtain ⟨⟨Z, g⟩, h⟩ := ok_of_isSome (x := diffusionAnalyzer id (exOracle ℚ) () exUnc (fromAse exNum exParams exSelect 1 none
    (.one (wrapped 5 ["Li", "O", "Li"] exBox 1000 exTrue exImages)))) (by decide +kernel)
  obtain ⟨⟨Z', g'⟩, h'⟩ := ok_of_isSome (x := jumpAnalyzer id (exOracle ℚ) () exUnc (fromAse exNum exParams exSelect 1 none
    (.one (wrapped 5 ["Li", "O", "Li"] exBox 1000 exTrue exImages)))) (by decide +kernel)
  obtain ⟨⟨Z'', g''⟩, h''⟩ := ok_of_isSome (x := conductivityAnalyzer id (exOracle ℚ) () exUnc (.scalar 2) (fromAse exNum exParams exSelect 1
    none (.one (wrapped 5 ["Li", "O", "Li"] exBox 1000 exTrue exImages)))) (by decide +kernel)
  have hax : axesOf exUnc.dimension = Finset.univ := by decide +kernel
  obtain ⟨t, -, -, ht, -, e, -⟩ := C98_diffusion exNum exParams exSelect _ _ _ exPicks exGrid 5 (by decide) exBox 1000 exTrue exImages
    exTrue_half id (exOracle ℚ) exUnc rfl rfl () () Z _ 1 (.inl ⟨rfl, rfl⟩) h
  obtain ⟨t', -, -, ht', -, e', -⟩ := C98_jump exNum exParams exSelect _ _ _ exPicks exGrid 5 (by decide) exBox 1000 exTrue exImages
    exTrue_half id (exOracle ℚ) exUnc rfl rfl () () Z' _ 1 (.inl ⟨rfl, rfl⟩) h'
  obtain ⟨t'', -, -, ht'', -, e'', -⟩ := C98_conductivity exNum exParams exSelect _ _ _ exPicks exGrid 5 (by decide) exBox 1000 exTrue
    exImages exTrue_half id (exOracle ℚ) exUnc rfl rfl () () Z'' _ 1 (.inl ⟨rfl, rfl⟩) (.scalar 2) (fun l e => by cases e) h''
  rw [ht (by decide +kernel), hax] at e
  rw [ht' (by decide +kernel), hax] at e'
  rw [ht'' (by decide +kernel), hax] at e''
  exact ⟨Z, Z', Z'', h, h', h'', e, e', e''⟩

end Kinisi
