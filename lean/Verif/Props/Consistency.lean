import Verif.Props.RandomWalk
import Verif.Lemmas.Consistency
import Mathlib.Topology.Algebra.Order.Field
import Mathlib.Analysis.SpecificLimits.Basic

/-!
# The reported MSD of a random walk converges to the true one: C97
-/

set_option linter.unusedSectionVars false
set_option linter.unusedVariables false

namespace Kinisi
open MeasureTheory ProbabilityTheory Spec

variable {Ω : Type} [MeasurableSpace Ω] {μ : Measure Ω} [IsProbabilityMeasure μ] {G : Type}

/-- The steps between the frames `k - 1` and `k + τ - 1` (for `k = 0` the first `τ - 1` steps). -/
def winSet (τ : ℕ) (w : ℕ × ℕ × Fin 3) : Finset (ℕ × ℕ × Fin 3) := (Finset.Ico (w.2.1 - 1) (w.2.1 + τ - 1)).image fun j => (w.1, j, w.2.2)

theorem mem_winSet {τ : ℕ} {w q : ℕ × ℕ × Fin 3} :
    q ∈ winSet τ w ↔ q.1 = w.1 ∧ (w.2.1 ≤ q.2.1 + 1 ∧ q.2.1 + 1 < w.2.1 + τ) ∧ q.2.2 = w.2.2 := by
  unfold winSet
  rw [Finset.mem_image]
  constructor
  · rintro ⟨j, hj, rfl⟩
    rw [Finset.mem_Ico] at hj
    exact ⟨rfl, ⟨by dsimp only; omega, by dsimp only; omega⟩, rfl⟩
  · rintro ⟨h1, ⟨h2, h3⟩, h4⟩
    exact ⟨q.2.1, Finset.mem_Ico.mpr ⟨by omega, by omega⟩, by rw [← h1, ← h4]⟩

theorem card_winSet (τ : ℕ) (w : ℕ × ℕ × Fin 3) : (winSet τ w).card ≤ τ := by
  refine Finset.card_image_le.trans ?_
  rw [Nat.card_Ico]
  omega

theorem moveOver_win {ξ : ℕ × ℕ × Fin 3 → Ω → ℝ} (τ i k : ℕ) (l : Fin 3) (ω : Ω) :
    moveOver ξ (winSet τ (i, k, l)) ω = ∑ j ∈ Finset.Ico (k - 1) (k + τ - 1), ξ (i, j, l) ω := by
  unfold moveOver winSet
  rw [Finset.sum_image]
  intro a _ b _ hab
  simpa using hab

/-- `reportedMsd` as a sum over atoms, windows and axes. -/
theorem reportedMsd_windows {L : M3 ℝ} {u : Ω → ℕ → ℕ → V3 ℝ} {fw atoms : List ℕ} (hnd : atoms.Nodup) {ξ : ℕ × ℕ × Fin 3 → Ω → ℝ}
    (hξ : ∀ i ∈ atoms, ∀ j l ω, walkStep L u fw i j l ω = ξ (i, j, l) ω) (A : Finset (Fin 3)) {F τ : ℕ} (h1 : 1 ≤ τ) (ω : Ω) :
    reportedMsd A L (u ω) fw atoms F τ = ((atoms.length : ℝ) * ((F - τ + 1 : ℕ) : ℝ))⁻¹ *
      ∑ w ∈ atoms.toFinset ×ˢ (Finset.range (F - τ + 1) ×ˢ A), moveOver ξ (winSet τ w) ω ^ 2 := by
  have hmove : ∀ i ∈ atoms, ∀ s n l, trueMove L (u ω) fw i s (s + n) l = ∑ j ∈ Finset.Ico s (s + n), ξ (i, j, l) ω := by
    intro i hi s n l
    rw [trueMove_steps, Finset.sum_Ico_eq_sum_range, Nat.add_sub_cancel_left]
    exact Finset.sum_congr rfl fun j _ => hξ i hi _ _ _
  unfold reportedMsd
  rw [div_eq_inv_mul, Finset.sum_product, ← List.sum_toFinset _ hnd]
  congr 1
  refine Finset.sum_congr rfl fun i hi => ?_
  rw [List.mem_toFinset] at hi
  rw [Finset.sum_product, Finset.sum_range_succ', add_comm]
  congr 1
  · refine Finset.sum_congr rfl fun s _ => Finset.sum_congr rfl fun l _ => ?_
    rw [moveOver_win, hmove i hi, Nat.add_sub_cancel, show s + 1 + τ - 1 = s + τ from by omega]
  · refine Finset.sum_congr rfl fun l _ => ?_
    have := hmove i hi 0 (τ - 1) l
    rw [Nat.zero_add] at this
    rw [moveOver_win, this]
    simp

theorem uncorrelated_of_walk {ξ : ℕ × ℕ × Fin 3 → Ω → ℝ} (h : RandomWalk μ ξ) {v C : ℝ} (hs : StepMoments μ ξ v C) {L : M3 ℝ}
    {u : Ω → ℕ → ℕ → V3 ℝ} {fw atoms : List ℕ} (hξ : ∀ i ∈ atoms, ∀ j l ω, walkStep L u fw i j l ω = ξ (i, j, l) ω) (T : ℕ) :
    UncorrelatedSteps μ (walkStep L u fw) atoms T v := by
  have e : ∀ i ∈ atoms, ∀ j l, walkStep L u fw i j l = ξ (i, j, l) := fun i hi j l => funext (hξ i hi j l)
  constructor
  · intro i hi l j _ j' _
    simp only [e i hi]
    exact (mul_memLp (h.moment _) (h.moment _)).integrable (by norm_num)
  · intro i hi l j _
    simp only [e i hi]
    rw [← hs.second (i, j, l)]
    simp only [sq]
  · intro i hi l j _ j' _ hne
    simp only [e i hi]
    have := (h.indep.indepFun (i := (i, j, l)) (j := (i, j', l)) (by simp [hne])).integral_fun_comp_mul_comp
      (f := fun x : ℝ => x) (g := fun x : ℝ => x) (h.meas _).aemeasurable (h.meas _).aemeasurable (by fun_prop) (by fun_prop)
    rw [this, h.mean, zero_mul]

/-- Mean squared error of `reportedMsd`. -/
theorem reportedMsd_mse {ξ : ℕ × ℕ × Fin 3 → Ω → ℝ} (h : RandomWalk μ ξ) {v C : ℝ} (hC : 0 ≤ C) (hs : StepMoments μ ξ v C) {L : M3 ℝ}
    {u : Ω → ℕ → ℕ → V3 ℝ} {fw atoms : List ℕ} (hnd : atoms.Nodup) (hne : atoms ≠ [])
    (hξ : ∀ i ∈ atoms, ∀ j l ω, walkStep L u fw i j l ω = ξ (i, j, l) ω) (A : Finset (Fin 3)) {F τ : ℕ} (h1 : 1 ≤ τ) (h2 : τ ≤ F) :
    MemLp (fun ω => reportedMsd A L (u ω) fw atoms F τ) 2 μ ∧ ∫ ω, (reportedMsd A L (u ω) fw atoms F τ - A.card * v * τ) ^ 2 ∂μ ≤
      A.card * ((2 * τ + 1) * (τ * (C + 6 * τ * v ^ 2))) / (atoms.length * ((F - τ + 1 : ℕ) : ℝ)) +
        (A.card * v / ((F - τ + 1 : ℕ) : ℝ)) ^ 2 := by
  have hN : (0 : ℝ) < atoms.length := by exact_mod_cast List.length_pos_of_ne_nil hne
  have hW : (0 : ℝ) < ((F - τ + 1 : ℕ) : ℝ) := by exact_mod_cast Nat.succ_pos _
  have hX := reportedMsd_mean (uncorrelated_of_walk h hs hξ (F - 1)) hne A h1 h2
  set W : ℝ := ((F - τ + 1 : ℕ) : ℝ) with hWd
  set N : ℝ := (atoms.length : ℝ) with hNd
  set X : Ω → ℝ := fun ω => reportedMsd A L (u ω) fw atoms F τ with hXd
  set P := atoms.toFinset ×ˢ (Finset.range (F - τ + 1) ×ˢ A) with hP
  have eX : X = fun ω => (N * W)⁻¹ * ∑ w ∈ P, moveOver ξ (winSet τ w) ω ^ 2 := funext fun ω => reportedMsd_windows hnd hξ A h1 ω
  have hmem : MemLp X 2 μ := by
    rw [eX]
    exact (memLp_finsetSum _ fun w _ => sq_memLp h _).const_mul _
  have hvar : Var[X; μ] ≤ A.card * ((2 * τ + 1) * (τ * (C + 6 * τ * v ^ 2))) / (N * W) := by
    have hv := var_overlap h hC hs P (winSet τ) τ (2 * τ + 1) (fun a _ => card_winSet τ a)
      (fun w => (Finset.Icc (w.2.1 - τ) (w.2.1 + τ)).image fun k => (w.1, k, w.2.2))
      (fun w _ => by
        refine Finset.card_image_le.trans ?_
        rw [Nat.card_Icc]
        omega)
      (fun a _ b _ hb => by
        rw [Finset.disjoint_left]
        intro q ha' hb'
        rw [mem_winSet] at ha' hb'
        apply hb
        rw [Finset.mem_image]
        refine ⟨b.2.1, Finset.mem_Icc.mpr ⟨by omega, by omega⟩, ?_⟩
        rw [← ha'.1, ← ha'.2.2, hb'.1, hb'.2.2])
    have hcard : (P.card : ℝ) = N * (W * A.card) := by
      rw [hP, Finset.card_product, Finset.card_product, Finset.card_range, List.toFinset_card_of_nodup hnd, Nat.cast_mul, Nat.cast_mul]
    have e : Var[X; μ] = ((N * W)⁻¹) ^ 2 * Var[fun ω => ∑ w ∈ P, moveOver ξ (winSet τ w) ω ^ 2; μ] := by
      rw [eX, variance_const_mul]
    rw [e]
    refine (mul_le_mul_of_nonneg_left hv (sq_nonneg _)).trans (le_of_eq ?_)
    rw [hcard]
    push_cast
    field_simp
  have split : ∫ ω, (X ω - A.card * v * τ) ^ 2 ∂μ = Var[X; μ] + (∫ ω, X ω ∂μ - A.card * v * τ) ^ 2 := by
    have hi := hmem.integrable (by norm_num)
    have hsq : Integrable (fun ω => X ω ^ 2) μ := hmem.integrable_sq
    rw [variance_eq_sub hmem]
    have e : ∀ ω, (X ω - A.card * v * τ) ^ 2 = X ω ^ 2 + ((-2 * (A.card * v * τ)) * X ω + (A.card * v * τ) ^ 2) := fun ω => by ring
    simp only [e]
    have hlin : Integrable (fun ω => (-2 * (A.card * v * τ)) * X ω + (A.card * v * τ) ^ 2) μ := (hi.const_mul _).add (integrable_const _)
    rw [integral_add hsq hlin, integral_add (hi.const_mul _) (integrable_const _), integral_const_mul, integral_const]
    simp only [Pi.pow_apply, probReal_univ, smul_eq_mul, one_mul]
    ring
  refine ⟨hmem, ?_⟩
  show ∫ ω, (X ω - A.card * v * τ) ^ 2 ∂μ ≤ _
  rw [split]
  refine add_le_add hvar (le_of_eq ?_)
  show (∫ ω, reportedMsd A L (u ω) fw atoms F τ ∂μ - _) ^ 2 = _
  rw [hX]
  field_simp
  ring

/-! ## C97 -/

theorem resolved_all {N F τ : ℕ} (hN : 1 ≤ N) (h1 : 1 ≤ τ) (h2 : 2 * τ ≤ F) :
    (resolved N F ((List.range F).map fun i => i + 1))[τ - 1]? = some τ := by
  unfold resolved
  have hF : (List.range F).map (fun i => i + 1) = ((List.range τ).map fun i => i + 1) ++ ((List.range (F - τ)).map fun i => τ + i + 1) := by
    have : F = τ + (F - τ) := by omega
    conv_lhs => rw [this, List.range_add, List.map_append, List.map_map]
    rfl
  rw [hF, List.filter_append]
  have h : ((List.range τ).map fun i => i + 1).filter (fun t => decide (2 ≤ N * (F / t))) = (List.range τ).map fun i => i + 1 := by
    rw [List.filter_eq_self]
    intro t ht
    obtain ⟨i, hi, rfl⟩ := List.mem_map.mp ht
    rw [List.mem_range] at hi
    have : 2 ≤ F / (i + 1) := (Nat.le_div_iff_mul_le (by omega)).mpr (by omega)
    exact decide_eq_true (by nlinarith)
  rw [h, List.getElem?_append_left (by simp; omega), List.getElem?_map, List.getElem?_range (by omega)]
  simp
  omega

/-- The bound on the mean squared error: `A` axes, `N` atoms, interval of `τ` frames, `F` frames. -/
noncomputable def mseBound (A : Finset (Fin 3)) (v C : ℝ) (N τ F : ℕ) : ℝ :=
  A.card * ((2 * τ + 1) * (τ * (C + 6 * τ * v ^ 2))) / (N * ((F - τ + 1 : ℕ) : ℝ)) + (A.card * v / ((F - τ + 1 : ℕ) : ℝ)) ^ 2

theorem mseBound_tendsto (A : Finset (Fin 3)) (v C : ℝ) (N τ : ℕ) : Filter.Tendsto (mseBound A v C N τ) Filter.atTop (nhds 0) := by
  have hW : Filter.Tendsto (fun F : ℕ => ((F - τ + 1 : ℕ) : ℝ)) Filter.atTop Filter.atTop := by
    refine tendsto_natCast_atTop_atTop.comp ?_
    exact Filter.tendsto_atTop_mono (fun F => show F - τ ≤ F - τ + 1 by omega) (Filter.tendsto_sub_atTop_nat τ)
  have e : mseBound A v C N τ = fun F : ℕ => A.card * ((2 * τ + 1) * (τ * (C + 6 * τ * v ^ 2))) / N / ((F - τ + 1 : ℕ) : ℝ) +
      (A.card * v / ((F - τ + 1 : ℕ) : ℝ)) ^ 2 := by
    funext F
    unfold mseBound
    rw [div_div]
  rw [e]
  have := (Filter.Tendsto.const_div_atTop hW (A.card * ((2 * τ + 1) * (τ * (C + 6 * τ * v ^ 2))) / N)).add
    ((Filter.Tendsto.const_div_atTop hW (A.card * v)).pow 2)
  simpa using this

/-- **C97, error bound.** The atoms make independent steps of mean zero with mean square `v` and fourth moment at most `C` along every axis,
relative to the framework.  In an analysis of `F ≥ 2 τ` frames with all intervals, the MSD reported for the interval of `τ` frames has a
mean squared error of at most `d (2 τ + 1) τ (C + 6 τ v²) / (N W) + (d v / W)²`, where `W = F - τ + 1`. -/
theorem C97_error (μ : Measure Ω) [IsProbabilityMeasure μ] (E : Num ℝ) (P : Params ℝ) (S : Select ℝ) (sy : List String)
    (atoms fw : List ℕ) (hS : Picks S sy atoms fw) (hnd : atoms.Nodup) (hne : atoms ≠ []) (hP : DefaultGrid E P) (F : ℕ)
    (hn : (F : ℤ) ≤ P.nSteps) (L : M3 ℝ) (V : ℝ) (u : Ω → ℕ → ℕ → V3 ℝ) (m : Ω → ℕ → ℕ → Fin 3 → ℤ)
    (hstep : ∀ ω, ∀ i < sy.length, ∀ j, j + 1 < F → HalfCell fun k => u ω i (j + 1) k - u ω i j k)
    (ξ : ℕ × ℕ × Fin 3 → Ω → ℝ) (h : RandomWalk μ ξ) (v C : ℝ) (hC : 0 ≤ C) (hs : StepMoments μ ξ v C)
    (hξ : ∀ i ∈ atoms, ∀ j l ω, walkStep L u fw i j l ω = ξ (i, j, l) ω)
    (sq : ℝ → ℝ) (o : Oracle ℝ G) (U : UncParams ℝ) (hblock : U.opt.block = false) (hsub : U.sub = 1)
    (base : Ω → PyM (Base ℝ)) (unit : ℝ) (hbase : ∀ ω, ReadFrom E P S F sy L V (u ω) (m ω) (base ω) unit) (g g' : Ω → G)
    (Z : Ω → Analyzer ℝ) (hZ : ∀ ω, diffusionAnalyzer sq o (g ω) U (base ω) = .ok (Z ω, g' ω)) (τ : ℕ) (h1 : 1 ≤ τ) (h2 : 2 * τ ≤ F) :
    (∀ ω, ((Z ω).diff.dt)[τ - 1]? = some ((τ : ℝ) * P.stepSkip.val * P.timeStep.val / unit) ∧ (((Z ω).diff.n)[τ - 1]?).isSome) ∧
    MemLp (fun ω => ((Z ω).diff.n)[τ - 1]?.getD 0) 2 μ ∧
    ∫ ω, (((Z ω).diff.n)[τ - 1]?.getD 0 - (axesOf U.dimension).card * v * τ) ^ 2 ∂μ ≤ mseBound (axesOf U.dimension) v C atoms.length τ F := by
  have hr := resolved_all (N := atoms.length) (List.length_pos_of_ne_nil hne) h1 h2
  have all : ∀ ω, ((Z ω).diff.n)[τ - 1]? = some (reportedMsd (axesOf U.dimension) L (u ω) fw atoms F τ) ∧
      ((Z ω).diff.dt)[τ - 1]? = some ((τ : ℝ) * P.stepSkip.val * P.timeStep.val / unit) := by
    intro ω
    obtain ⟨B, hB, -, hm⟩ := diffusion_inv (hZ ω)
    obtain ⟨taus, -, ht⟩ := read_base hS hP (by omega) (hstep ω) (hbase ω) hB
    obtain ⟨e1, e2⟩ := msd_of_parsed ht hblock hsub hm
    have := ht.full hn
    subst this
    rw [e1, e2, List.getElem?_map, List.getElem?_map, hr]
    exact ⟨rfl, rfl⟩
  have e : (fun ω => ((Z ω).diff.n)[τ - 1]?.getD 0) = fun ω => reportedMsd (axesOf U.dimension) L (u ω) fw atoms F τ := by
    funext ω
    rw [(all ω).1]
    rfl
  obtain ⟨m1, m2⟩ := reportedMsd_mse h hC hs hnd hne hξ (axesOf U.dimension) h1 (show τ ≤ F by omega)
  refine ⟨fun ω => ⟨(all ω).2, by rw [(all ω).1]; rfl⟩, by rw [e]; exact m1, le_of_eq_of_le ?_ m2⟩
  congr 1
  funext ω
  exact congrArg (fun x => (x - _) ^ 2) (congrFun e ω)

/-- **C97, limit.** One walk is analysed from its first `F` frames, for every `F`.  As the number of frames grows, the MSD reported for a
fixed interval of `τ` frames tends, in mean square and in probability, to the true `d v τ`. -/
theorem C97_limit (μ : Measure Ω) [IsProbabilityMeasure μ] (E : Num ℝ) (P : ℕ → Params ℝ) (S : Select ℝ) (sy : List String)
    (atoms fw : List ℕ) (hS : Picks S sy atoms fw) (hnd : atoms.Nodup) (hne : atoms ≠ []) (hP : ∀ F, DefaultGrid E (P F))
    (hn : ∀ F : ℕ, (F : ℤ) ≤ (P F).nSteps) (L : M3 ℝ) (V : ℝ) (u : Ω → ℕ → ℕ → V3 ℝ) (m : Ω → ℕ → ℕ → Fin 3 → ℤ)
    (hstep : ∀ ω, ∀ i < sy.length, ∀ j, HalfCell fun k => u ω i (j + 1) k - u ω i j k)
    (ξ : ℕ × ℕ × Fin 3 → Ω → ℝ) (h : RandomWalk μ ξ) (v C : ℝ) (hC : 0 ≤ C) (hs : StepMoments μ ξ v C)
    (hξ : ∀ i ∈ atoms, ∀ j l ω, walkStep L u fw i j l ω = ξ (i, j, l) ω)
    (sq : ℝ → ℝ) (o : Oracle ℝ G) (U : UncParams ℝ) (hblock : U.opt.block = false) (hsub : U.sub = 1)
    (base : ℕ → Ω → PyM (Base ℝ)) (unit : ℝ) (hbase : ∀ F ω, ReadFrom E (P F) S F sy L V (u ω) (m ω) (base F ω) unit)
    (g g' : ℕ → Ω → G) (Z : ℕ → Ω → Analyzer ℝ) (τ : ℕ) (h1 : 1 ≤ τ)
    (hZ : ∀ F, 2 * τ ≤ F → ∀ ω, diffusionAnalyzer sq o (g F ω) U (base F ω) = .ok (Z F ω, g' F ω)) :
    Filter.Tendsto (fun F => ∫ ω, (((Z F ω).diff.n)[τ - 1]?.getD 0 - (axesOf U.dimension).card * v * τ) ^ 2 ∂μ) Filter.atTop (nhds 0) ∧
    ∀ ε : ℝ, 0 < ε → Filter.Tendsto (fun F => μ.real {ω | ε ≤ |((Z F ω).diff.n)[τ - 1]?.getD 0 - (axesOf U.dimension).card * v * τ|})
      Filter.atTop (nhds 0) := by
  have key : ∀ F, 2 * τ ≤ F → _ := fun F hF => C97_error μ E (P F) S sy atoms fw hS hnd hne (hP F) F (hn F) L V u m
    (fun ω i hi j _ => hstep ω i hi j) ξ h v C hC hs hξ sq o U hblock hsub (base F) unit (hbase F) (g F) (g' F) (Z F) (hZ F hF) τ h1 hF
  have lim : Filter.Tendsto (fun F => ∫ ω, (((Z F ω).diff.n)[τ - 1]?.getD 0 - (axesOf U.dimension).card * v * τ) ^ 2 ∂μ)
      Filter.atTop (nhds 0) := by
    refine tendsto_of_tendsto_of_tendsto_of_le_of_le' tendsto_const_nhds (mseBound_tendsto (axesOf U.dimension) v C atoms.length τ) ?_ ?_
    · exact Filter.Eventually.of_forall fun F => integral_nonneg fun ω => sq_nonneg _
    · exact (Filter.eventually_ge_atTop (2 * τ)).mono fun F hF => (key F hF).2.2
  refine ⟨lim, fun ε hε => ?_⟩
  have l2 := lim.div_const (ε ^ 2)
  rw [zero_div] at l2
  refine tendsto_of_tendsto_of_tendsto_of_le_of_le' tendsto_const_nhds l2 ?_ ?_
  · exact Filter.Eventually.of_forall fun F => measureReal_nonneg
  · refine (Filter.eventually_ge_atTop (2 * τ)).mono fun F hF => ?_
    have hi := ((key F hF).2.1.sub (memLp_const ((axesOf U.dimension).card * v * τ : ℝ))).integrable_sq
    have := mul_meas_ge_le_integral_of_nonneg (μ := μ) (Filter.Eventually.of_forall fun ω => sq_nonneg _) hi (ε ^ 2)
    rw [le_div_iff₀ (by positivity), mul_comm]
    refine le_trans (le_of_eq ?_) this
    congr 2
    ext ω
    show ε ≤ |_| ↔ ε ^ 2 ≤ (_ - _) ^ 2
    rw [← sq_abs (_ - _), sq_le_sq₀ hε.le (abs_nonneg _)]

/-! ### Example: fair coins decide the steps -/

/-- A fair coin. -/
noncomputable def exCoin : Measure Bool := (2⁻¹ : ENNReal) • (Measure.dirac true + Measure.dirac false)

instance : IsProbabilityMeasure exCoin := by
  constructor
  unfold exCoin
  simp only [Measure.smul_apply, Measure.add_apply, measure_univ, smul_eq_mul]
  norm_num
  exact ENNReal.inv_mul_cancel (by norm_num) (by norm_num)

theorem exCoin_integral (f : Bool → ℝ) : ∫ b, f b ∂exCoin = (f true + f false) / 2 := by
  have hi : ∀ a, Integrable f (Measure.dirac a) := fun a => integrable_dirac (by simp)
  unfold exCoin
  rw [integral_smul_measure, integral_add_measure (hi _) (hi _)]
  simp only [integral_dirac, ENNReal.toReal_inv, ENNReal.toReal_ofNat, smul_eq_mul]
  ring

/-- One coin per atom, frame and axis. -/
noncomputable abbrev exTosses : Measure (ℕ × ℕ × Fin 3 → Bool) := Measure.infinitePi fun _ => exCoin

theorem exTosses_walk : RandomWalk exTosses (fun q ω => exSign (ω q)) ∧ StepMoments exTosses (fun q ω => exSign (ω q)) (1 / 16) (1 / 256) := by
  have mp := fun i => measurePreserving_eval_infinitePi (fun _ : ℕ × ℕ × Fin 3 => exCoin) i
  have int : ∀ i (f : Bool → ℝ), ∫ ω, f (ω i) ∂exTosses = ∫ x, f x ∂exCoin := by
    intro i f
    have h := integral_map (μ := exTosses) (mp i).measurable.aemeasurable (f := f) (Measurable.of_discrete).aestronglyMeasurable
    rw [(mp i).map_eq] at h
    exact h.symm
  refine ⟨⟨iIndepFun_infinitePi (X := fun _ => exSign) fun i => Measurable.of_discrete, fun i => ?_, fun i => ?_, fun i => ?_⟩,
    fun i => ?_, fun i => ?_⟩
  · have : Measurable exSign := Measurable.of_discrete
    exact this.comp (measurable_pi_apply i)
  · have : MemLp exSign 4 exCoin := MemLp.of_discrete
    exact this.comp_measurePreserving (mp i)
  · rw [int i exSign, exCoin_integral]
    norm_num [exSign]
  · rw [int i fun b => exSign b ^ 2, exCoin_integral]
    norm_num [exSign]
  · rw [int i fun b => exSign b ^ 4, exCoin_integral]
    norm_num [exSign]

/-- Atom 0 makes a step of `±1/4` along every axis at every frame, atom 1 rests. -/
noncomputable def exLong (ω : ℕ × ℕ × Fin 3 → Bool) (i j : ℕ) : V3 ℝ := fun k =>
  if i = 0 then ∑ s ∈ Finset.range j, exSign (ω (0, s, k)) else 0

theorem exLong_step (i j : ℕ) (l : Fin 3) (ω : ℕ × ℕ × Fin 3 → Bool) (hi : i ∈ [0]) :
    walkStep exCube exLong [1] i j l ω = exSign (ω (i, j, l)) := by
  rw [List.mem_singleton] at hi
  subst hi
  have hc : ∀ s : V3 ℝ, cart exCube s l = s l := by
    intro s
    unfold cart exCube
    simp
  simp only [walkStep, trueMove, meanOver, hc, exLong]
  simp [Finset.sum_range_succ]

theorem exLong_half (ω : ℕ × ℕ × Fin 3 → Bool) (i j : ℕ) : HalfCell fun k => exLong ω i (j + 1) k - exLong ω i j k := by
  intro k
  simp only [exLong]
  by_cases hi : i = 0
  · rw [if_pos hi, if_pos hi, Finset.sum_range_succ, add_sub_cancel_left]
    cases ω (0, j, k) <;> norm_num [exSign]
  · simp [hi]

/-- All intervals, and memory for them. -/
noncomputable def exParamsF (F : ℕ) : Params ℝ :=
  { timeStep := .float 2, stepSkip := .int 1, memoryLimit := ((3 * 2 * F * F * 8 : ℕ) : ℝ), nSteps := F }

theorem exLong_ok (ω : ℕ × ℕ × Fin 3 → Bool) (F : ℕ) (hF : 2 ≤ F) : ∃ Z, diffusionAnalyzer id (exOracle ℝ) () exUncR
    (fromAse exNumR (exParamsF F) exSelectR 1 none (.one (wrapped F ["Li", "O"] exCube 1 (exLong ω) fun _ _ _ => 0))) = .ok (Z, ()) := by
  obtain ⟨n, rfl⟩ : ∃ n, F = n + 1 := ⟨F - 1, by omega⟩
  have hw : wrapped (n + 1) ["Li", "O"] exCube 1 (exLong ω) (fun _ _ _ => 0) =
      ⟨["Li", "O"], (List.range 2).map fun i => fun k => exLong ω i 0 k + (((0 : ℤ)) : ℝ), exCube, 1⟩ ::
        (List.range n).map fun j => ⟨["Li", "O"], (List.range 2).map fun i => fun k => exLong ω i (j + 1) k + (((0 : ℤ)) : ℝ), exCube, 1⟩ := by
    unfold wrapped
    rw [List.range_succ_eq_map, List.map_cons, List.map_map]
    rfl
  rw [hw]
  suffices h : AllAnalyzed (chosen ["Li", "O"] ["Li"]).length id (exOracle ℝ) () exUncR _ by
    obtain ⟨⟨Z, _, h, -⟩, -⟩ := h
    exact ⟨Z, h⟩
  refine C79_ase exNumR (exParamsF (n + 1)) exSelectR ["Li"] rfl rfl ?_ ?_ 2 _ _ ?_ ?_ ?_ id (exOracle ℝ) () exUncR (.off rfl rfl) le_rfl
    (by decide +kernel)
  · refine ⟨rfl, ?_, rfl, rfl, rfl, rfl⟩
    simp [exParamsF, PyNum.val]
  · show (1 : ℤ) ≤ ((n + 1 : ℕ) : ℤ)
    omega
  · simp; omega
  · rw [← hw]
    intro f hf
    have hn : NonSingular exCube := by
      unfold NonSingular exCube
      rw [show (Matrix.of fun a b : Fin 3 => if a = b then (1 : ℝ) else 0) = 1 from rfl, Matrix.det_one]
      exact one_ne_zero
    obtain ⟨j, -, rfl⟩ := List.mem_map.mp hf
    exact ⟨rfl, by simp, hn, "Li", by simp, by simp⟩
  · rw [List.length_map, List.length_range]
    show ((3 * 2 * (n + 1) * (n + 1) * 8 : ℕ) : ℝ) ≤ ((3 * 2 * (n + 1) * (n + 1) * 8 : ℕ) : ℝ) * 10 ^ 9
    exact le_mul_of_one_le_right (Nat.cast_nonneg _) (by norm_num)

/-- The hypotheses hold for the coin walk: the MSD reported for 2 frames tends to 3/8, with an error below 1/100 in mean square once
there are 1000 frames. -/
example : ∃ Z : ℕ → (ℕ × ℕ × Fin 3 → Bool) → Analyzer ℝ,
    (∀ F, 4 ≤ F → ∀ ω, diffusionAnalyzer id (exOracle ℝ) () exUncR (fromAse exNumR (exParamsF F) exSelectR 1 none
      (.one (wrapped F ["Li", "O"] exCube 1 (exLong ω) fun _ _ _ => 0))) = .ok (Z F ω, ())) ∧
    (∀ ε : ℝ, 0 < ε → Filter.Tendsto (fun F => exTosses.real {ω | ε ≤ |((Z F ω).diff.n)[1]?.getD 0 - 3 / 8|}) Filter.atTop (nhds 0)) ∧
    ∫ ω, (((Z 1000 ω).diff.n)[1]?.getD 0 - 3 / 8) ^ 2 ∂exTosses ≤ 1 / 100 := by
  have hex : ∀ F ω, ∃ Z, 4 ≤ F → diffusionAnalyzer id (exOracle ℝ) () exUncR (fromAse exNumR (exParamsF F) exSelectR 1 none
      (.one (wrapped F ["Li", "O"] exCube 1 (exLong ω) fun _ _ _ => 0))) = .ok (Z, ()) := by
    intro F ω
    obtain ⟨Z0, -⟩ := exLong_ok ω 2 (by omega)
    by_cases hF : 4 ≤ F
    · obtain ⟨Z, hZ⟩ := exLong_ok ω F (by omega)
      exact ⟨Z, fun _ => hZ⟩
    · exact ⟨Z0, fun h => absurd h hF⟩
  choose Z hZ using hex
  have hax : (axesOf exUncR.dimension).card = 3 := by decide +kernel
  have hg : ∀ F, DefaultGrid exNumR (exParamsF F) := by
    intro F
    refine ⟨rfl, ?_, rfl, rfl, rfl, rfl⟩
    simp [exParamsF, PyNum.val]
  have hb : ∀ F ω, ReadFrom exNumR (exParamsF F) exSelectR F ["Li", "O"] exCube 1 (exLong ω) (fun _ _ _ => 0)
      (fromAse exNumR (exParamsF F) exSelectR 1 none (.one (wrapped F ["Li", "O"] exCube 1 (exLong ω) fun _ _ _ => 0))) 1 :=
    fun F ω => Or.inl ⟨rfl, rfl⟩
  refine ⟨Z, fun F hF ω => hZ F ω hF, ?_, ?_⟩
  · have := (C97_limit exTosses exNumR exParamsF exSelectR ["Li", "O"] [0] [1] (.species ["Li"] rfl rfl) (by simp) (by simp) hg
      (fun F => le_refl _) exCube 1 exLong (fun _ _ _ _ => 0) (fun ω i _ j => exLong_half ω i j) _ exTosses_walk.1 (1 / 16) (1 / 256)
      (by norm_num) exTosses_walk.2 (fun i hi j l ω => exLong_step i j l ω hi) id (exOracle ℝ) exUncR rfl rfl _ 1 hb
      (fun _ _ => ()) (fun _ _ => ()) Z 2 (by norm_num) (fun F hF ω => hZ F ω hF)).2
    rw [hax] at this
    norm_num at this
    exact this
  · have := (C97_error exTosses exNumR (exParamsF 1000) exSelectR ["Li", "O"] [0] [1] (.species ["Li"] rfl rfl) (by simp) (by simp) (hg _) 1000
      (le_refl _) exCube 1 exLong (fun _ _ _ _ => 0) (fun ω i _ j _ => exLong_half ω i j) _ exTosses_walk.1 (1 / 16) (1 / 256)
      (by norm_num) exTosses_walk.2 (fun i hi j l ω => exLong_step i j l ω hi) id (exOracle ℝ) exUncR rfl rfl _ 1 (hb 1000)
      (fun _ => ()) (fun _ => ()) (Z 1000) (fun ω => hZ 1000 ω (by norm_num)) 2 (by norm_num) (by norm_num)).2.2
    rw [mseBound, hax] at this
    norm_num at this ⊢
    linarith

end Kinisi
