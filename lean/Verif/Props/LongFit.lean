import Verif.Props.AnyAtoms
import Verif.Props.Collective
import Verif.Props.Consistency
import Verif.Props.CurveErrors
import Verif.Props.GridTotal

/-!
# C140: more frames give the right gradient
-/

set_option linter.unusedSectionVars false
set_option linter.unusedVariables false

namespace Kinisi
open Spec MeasureTheory
variable {G : Type} {Ω : Type} [MeasurableSpace Ω]

/-- `D` is the gradient of the best line through the origin in a fit of `b` from position `r` on: positive variances `v`, whether measured (`b.v`) or from a model, and the inverse of the matrix that the code
builds from them as weights. -/
def FittedRay {K : Type} [Field K] [LinearOrder K] (b : Boot K) (r : ℕ) (D : K) : Prop :=
  ∃ (v : List (Option K)) (m : ℕ) (W : Matrix (Fin (m + 1)) (Fin (m + 1)) K) (ld best : K), v.length = b.n.length ∧ m + 1 = b.n.length - r ∧ FitWeights { b with v := v } r W ∧
    (∀ i, r ≤ i → i < b.n.length → ∃ y, v[i]? = some (some y) ∧ 0 < y) ∧ (∀ N ∈ b.nO, 0 < N) ∧ BestRay (fitLL b r ld W) D best

/-- The gradient is the first fitted value over its time. -/
theorem fittedRay_ratio {E : Num ℝ} {P : Params ℝ} {S : Select ℝ} {sy : List String} {atoms fw : List ℕ} (hS : Picks S sy atoms fw) (hP : DefaultGrid E P) {F : ℕ} (hF : 2 ≤ F)
    {L : M3 ℝ} {V : ℝ} {u : ℕ → ℕ → V3 ℝ} {m : ℕ → ℕ → Fin 3 → ℤ} (hstep : ∀ i < sy.length, ∀ j, j + 1 < F → HalfCell fun k => u i (j + 1) k - u i j k) {sq : ℝ → ℝ} {o : Oracle ℝ G} {U : UncParams ℝ}
    (hblock : U.opt.block = false) (hsub : U.sub = 1) {base : PyM (Base ℝ)} {unit : ℝ} (hbase : ReadFrom E P S F sy L V u m base unit) {g g' : G} {Z : Analyzer ℝ}
    (h : diffusionAnalyzer sq o g U base = .ok (Z, g')) {r : ℕ} {D : ℝ} (hD : FittedRay Z.diff r D) : D = Z.diff.n.getD r 0 / Z.diff.dt.getD r 0 := by
  obtain ⟨v, k, W, ld, best, hl, hm, hW, hv, hN, hb⟩ := hD
  obtain ⟨B₀, hB, hZ, hmsd⟩ := diffusion_inv h
  obtain ⟨taus, -, ht⟩ := read_base hS hP hF hstep hbase hB
  obtain ⟨hn, hd⟩ := msd_of_parsed ht hblock hsub hmsd
  obtain ⟨hfl, hpos, -, -, -, hsm⟩ := hP
  obtain ⟨κ, hκ⟩ := path_constant hfl hsm hpos (uni := wrappedMda F sy L V u m) (charge := .scalar 1) hbase hsub (.inl h) (fun τ hτ => (ht.range τ hτ).1) (ht.sorted.imp fun h => h.le) (by rw [hZ]; exact ht.deltaT)
  obtain ⟨b0, q, i1, -, i2, -⟩ := msdBootstrap_inv hmsd
  have hld : Z.diff.dt.length = Z.diff.n.length := by rw [i2.ldt, i2.ln]
  have hdt : ∀ t ∈ Z.diff.dt, 0 < t := by
    intro t' ht'
    rw [hd] at ht'
    obtain ⟨τ, hτ, rfl⟩ := List.mem_map.mp ht'
    have h0 : (0 : ℝ) < τ := by exact_mod_cast (ht.range τ (List.mem_filter.mp hτ).1).1
    have hu : 0 < unit := by rcases hbase with ⟨-, rfl⟩ | ⟨-, rfl⟩ | ⟨-, rfl⟩ <;> norm_num
    rw [mul_assoc]
    positivity
  have hy : ∀ y ∈ Z.diff.n, 0 ≤ y := C28_nonneg sq o U.opt hblock g g' _ _ _ _ _ _ hmsd
  exact (fit_ray (b := { Z.diff with v := v }) hW hm hl hld hv hN κ hκ hdt hy ld D).1 ⟨best, hb⟩

/-- **C140, error bound.** The atoms make independent steps of mean zero with mean square `v` and fourth moment at most `C` along every axis, relative to the framework; frames are `δ` apart.  The probability that a
fit without intercept, from the interval of `τ` frames on, returns a gradient that is off by `ε` or more is at most the bound of C97 divided by `(ε τ δ)²`.  The variances behind
the weights are any positive numbers, such as those that the code gets from the same trajectory. -/
theorem C140_error (μ : Measure Ω) [IsProbabilityMeasure μ] (E : Num ℝ) (P : Params ℝ) (S : Select ℝ) (sy : List String) (atoms fw : List ℕ) (hS : Picks S sy atoms fw) (hnd : atoms.Nodup)
    (hne : atoms ≠ []) (hP : DefaultGrid E P) (F : ℕ) (hn : (F : ℤ) ≤ P.nSteps) (L : M3 ℝ) (V : ℝ) (u : Ω → ℕ → ℕ → V3 ℝ) (m : Ω → ℕ → ℕ → Fin 3 → ℤ)
    (hstep : ∀ ω, ∀ i < sy.length, ∀ j, j + 1 < F → HalfCell fun k => u ω i (j + 1) k - u ω i j k) (ξ : ℕ × ℕ × Fin 3 → Ω → ℝ) (h : RandomWalk μ ξ) (v C : ℝ) (hC : 0 ≤ C) (hs : StepMoments μ ξ v C)
    (hξ : ∀ i ∈ atoms, ∀ j l ω, walkStep L u fw i j l ω = ξ (i, j, l) ω) (sq : ℝ → ℝ) (o : Oracle ℝ G) (U : UncParams ℝ) (hblock : U.opt.block = false) (hsub : U.sub = 1) (base : Ω → PyM (Base ℝ)) (unit : ℝ)
    (hbase : ∀ ω, ReadFrom E P S F sy L V (u ω) (m ω) (base ω) unit) (g g' : Ω → G) (Z : Ω → Analyzer ℝ) (hZ : ∀ ω, diffusionAnalyzer sq o (g ω) U (base ω) = .ok (Z ω, g' ω)) (τ : ℕ) (h1 : 1 ≤ τ)
    (hF : 2 * τ ≤ F) (δ : ℝ) (hδ : δ = P.stepSkip.val * P.timeStep.val / unit) (ε : ℝ) (hε : 0 < ε) :
    μ.real {ω | ∃ D, FittedRay (Z ω).diff (τ - 1) D ∧ ε ≤ |D - (axesOf U.dimension).card * v / δ|} ≤ mseBound (axesOf U.dimension) v C atoms.length τ F / (ε * τ * δ) ^ 2 := by
  obtain ⟨k1, k2, k3⟩ := C97_error μ E P S sy atoms fw hS hnd hne hP F hn L V u m hstep ξ h v C hC hs hξ sq o U hblock hsub base unit hbase g g' Z hZ τ h1 hF
  have hΩ : Nonempty Ω := μ.nonempty_of_neZero
  have hu : 0 < unit := by rcases hbase hΩ.some with ⟨-, rfl⟩ | ⟨-, rfl⟩ | ⟨-, rfl⟩ <;> norm_num
  have hδ0 : 0 < δ := by rw [hδ]; exact div_pos hP.2.1 hu
  have hτ0 : (0 : ℝ) < τ := by exact_mod_cast h1
  have hi := (k2.sub (memLp_const ((axesOf U.dimension).card * v * τ : ℝ))).integrable_sq
  have cheb := mul_meas_ge_le_integral_of_nonneg (μ := μ) (Filter.Eventually.of_forall fun ω => sq_nonneg _) hi ((ε * τ * δ) ^ 2)
  rw [le_div_iff₀ (by positivity), mul_comm]
  refine le_trans (mul_le_mul_of_nonneg_left (measureReal_mono (fun ω hω => ?_)) (by positivity)) (cheb.trans k3)
  obtain ⟨D, hD, hoff⟩ := hω
  have hr := fittedRay_ratio hS hP (by omega) (hstep ω) hblock hsub (hbase ω) (hZ ω) hD
  have hdt : (Z ω).diff.dt.getD (τ - 1) 0 = τ * δ := by
    rw [List.getD_eq_getElem?_getD, (k1 ω).1, hδ]
    show (τ : ℝ) * _ * _ / _ = _
    ring
  rw [hdt, List.getD_eq_getElem?_getD] at hr
  show (ε * τ * δ) ^ 2 ≤ (((Z ω).diff.n)[τ - 1]?.getD 0 - (axesOf U.dimension).card * v * τ) ^ 2
  have e : ((Z ω).diff.n)[τ - 1]?.getD 0 - (axesOf U.dimension).card * v * τ = (D - (axesOf U.dimension).card * v / δ) * (τ * δ) := by
    rw [hr]
    field_simp
  rw [e, mul_assoc, mul_pow, mul_pow (D - _), ← sq_abs (D - _)]
  exact mul_le_mul_of_nonneg_right (pow_le_pow_left₀ hε.le hoff 2) (sq_nonneg _)

/-- **C140, limit.** One walk is analysed from its first `F` frames, for every `F`.  The probability that a fit without intercept returns a gradient that is off by `ε` or more tends to zero: with more frames the fitted
gradient is the true one, `2 d` times the diffusion coefficient. -/
theorem C140_limit (μ : Measure Ω) [IsProbabilityMeasure μ] (E : Num ℝ) (P : ℕ → Params ℝ) (S : Select ℝ) (sy : List String) (atoms fw : List ℕ) (hS : Picks S sy atoms fw) (hnd : atoms.Nodup)
    (hne : atoms ≠ []) (hP : ∀ F, DefaultGrid E (P F)) (hn : ∀ F : ℕ, (F : ℤ) ≤ (P F).nSteps) (L : M3 ℝ) (V : ℝ) (u : Ω → ℕ → ℕ → V3 ℝ) (m : Ω → ℕ → ℕ → Fin 3 → ℤ)
    (hstep : ∀ ω, ∀ i < sy.length, ∀ j, HalfCell fun k => u ω i (j + 1) k - u ω i j k) (ξ : ℕ × ℕ × Fin 3 → Ω → ℝ) (h : RandomWalk μ ξ) (v C : ℝ) (hC : 0 ≤ C) (hs : StepMoments μ ξ v C)
    (hξ : ∀ i ∈ atoms, ∀ j l ω, walkStep L u fw i j l ω = ξ (i, j, l) ω) (sq : ℝ → ℝ) (o : Oracle ℝ G) (U : UncParams ℝ) (hblock : U.opt.block = false) (hsub : U.sub = 1) (base : ℕ → Ω → PyM (Base ℝ))
    (unit : ℝ) (hbase : ∀ F ω, ReadFrom E (P F) S F sy L V (u ω) (m ω) (base F ω) unit) (g g' : ℕ → Ω → G) (Z : ℕ → Ω → Analyzer ℝ) (τ : ℕ) (h1 : 1 ≤ τ)
    (hZ : ∀ F, 2 * τ ≤ F → ∀ ω, diffusionAnalyzer sq o (g F ω) U (base F ω) = .ok (Z F ω, g' F ω)) (δ : ℝ) (hδ : ∀ F, δ = (P F).stepSkip.val * (P F).timeStep.val / unit) (ε : ℝ) (hε : 0 < ε) :
    Filter.Tendsto (fun F => μ.real {ω | ∃ D, FittedRay (Z F ω).diff (τ - 1) D ∧ ε ≤ |D - (axesOf U.dimension).card * v / δ|}) Filter.atTop (nhds 0) := by
  have l2 := (mseBound_tendsto (axesOf U.dimension) v C atoms.length τ).div_const ((ε * τ * δ) ^ 2)
  rw [zero_div] at l2
  refine tendsto_of_tendsto_of_tendsto_of_le_of_le' tendsto_const_nhds l2 (Filter.Eventually.of_forall fun F => measureReal_nonneg) ((Filter.eventually_ge_atTop (2 * τ)).mono fun F hF => ?_)
  exact C140_error μ E (P F) S sy atoms fw hS hnd hne (hP F) F (hn F) L V u m (fun ω i hi j _ => hstep ω i hi j) ξ h v C hC hs hξ sq o U hblock hsub (base F) unit (hbase F) (g F) (g' F) (Z F) (hZ F hF) τ h1 hF δ
    (hδ F) ε hε

/-! ### With an intercept -/

/-- The chance that a value is off. -/
theorem value_off {μ : Measure Ω} [IsProbabilityMeasure μ] {ξ : ℕ × ℕ × Fin 3 → Ω → ℝ} (h : RandomWalk μ ξ) {v C : ℝ} (hC : 0 ≤ C) (hs : StepMoments μ ξ v C) {L : M3 ℝ}
    {u : Ω → ℕ → ℕ → V3 ℝ} {fw atoms : List ℕ} (hnd : atoms.Nodup) (hne : atoms ≠ []) (hξ : ∀ i ∈ atoms, ∀ j l ω, walkStep L u fw i j l ω = ξ (i, j, l) ω) (A : Finset (Fin 3)) {F τ : ℕ} (h1 : 1 ≤ τ)
    (h2 : τ ≤ F) {η : ℝ} (hη : 0 < η) : μ.real {ω | η ≤ |reportedMsd A L (u ω) fw atoms F τ - A.card * v * τ|} ≤ mseBound A v C atoms.length τ F / η ^ 2 := by
  obtain ⟨k2, k3⟩ := reportedMsd_mse h hC hs hnd hne hξ A h1 h2
  have hi := (k2.sub (memLp_const (A.card * v * τ : ℝ))).integrable_sq
  have cheb := mul_meas_ge_le_integral_of_nonneg (μ := μ) (Filter.Eventually.of_forall fun ω => sq_nonneg _) hi (η ^ 2)
  rw [le_div_iff₀ (by positivity), mul_comm]
  refine le_trans (mul_le_mul_of_nonneg_left (measureReal_mono (fun ω hω => ?_)) (by positivity)) (cheb.trans k3)
  show η ^ 2 ≤ (reportedMsd A L (u ω) fw atoms F τ - A.card * v * τ) ^ 2
  rw [← sq_abs (_ - _)]
  exact pow_le_pow_left₀ hη.le hω 2

/-- **C140, error bound with an intercept.** The default fit, for intervals from `m` to `M` frames that the user has chosen, any spacing, any start of the fit, also in cells that change: the probability that the gradient is off by
`ε` or more is at most the sum of the bounds of C97 over the intervals, divided by `(ε m δ / (1 + 2 M))²`. -/
theorem C140_line_error (μ : Measure Ω) [IsProbabilityMeasure μ] (E : Num ℝ) (P : Params ℝ) (S : Select ℝ) (sy : List String) (atoms fw : List ℕ) (hS : Picks S sy atoms fw) (hnd : atoms.Nodup)
    (hne : atoms ≠ []) (F m M : ℕ) (hF : 2 ≤ F) (hM : M ≤ F) (hG : UserGrid E P F m M) (C : Ω → ℕ → M3 ℝ) (V : Ω → ℕ → ℝ) (s x : Ω → ℕ → ℕ → V3 ℝ)
    (hst : ∀ ω, StoredIn F sy.length (C ω) (s ω) (x ω)) (ξ : ℕ × ℕ × Fin 3 → Ω → ℝ) (h : RandomWalk μ ξ) (v C₄ : ℝ) (hC : 0 ≤ C₄) (hs : StepMoments μ ξ v C₄)
    (hξ : ∀ i ∈ atoms, ∀ j l ω, walkStep unitCell x fw i j l ω = ξ (i, j, l) ω) (sq : ℝ → ℝ) (o : Oracle ℝ G) (U : UncParams ℝ) (hblock : U.opt.block = false) (hsub : U.sub = 1) (base : Ω → PyM (Base ℝ)) (unit : ℝ)
    (hbase : ∀ ω, ReadFrames E P S (cellFrames F sy (C ω) (V ω) (s ω)) (cellUniverse F sy (C ω) (V ω) (s ω)) (base ω) unit) (g g' : Ω → G) (Z : Ω → Analyzer ℝ)
    (hZ : ∀ ω, diffusionAnalyzer sq o (g ω) U (base ω) = .ok (Z ω, g' ω)) (r : ℕ) (δ : ℝ) (hδ : δ = P.stepSkip.val * P.timeStep.val / unit) (ε : ℝ) (hε : 0 < ε) :
    μ.real {ω | ∃ D c, FittedLine (Z ω).diff r D c ∧ ε ≤ |D - (axesOf U.dimension).card * v / δ|} ≤
      ∑ τ ∈ Finset.Icc m M, mseBound (axesOf U.dimension) v C₄ atoms.length τ F / (ε * m * δ / (1 + 2 * M)) ^ 2 := by
  have hΩ : Nonempty Ω := μ.nonempty_of_neZero
  have hu : 0 < unit := by rcases hbase hΩ.some with ⟨-, rfl⟩ | ⟨-, rfl⟩ | ⟨-, rfl⟩ <;> norm_num
  have hδ0 : 0 < δ := by rw [hδ]; exact div_pos hG.pos hu
  have hm1 : 1 ≤ m := by have := hG.first; omega
  have hm0 : (0 : ℝ) < m := by exact_mod_cast hm1
  have hv0 : 0 ≤ v := by rw [← hs.second (0, 0, 0)]; exact integral_nonneg fun ω => sq_nonneg _
  set A := axesOf U.dimension with hA
  set η : ℝ := ε * m * δ / (1 + 2 * M) with hη
  have hη0 : 0 < η := by positivity
  refine le_trans (measureReal_mono (s₂ := ⋃ τ ∈ Finset.Icc m M, {ω | η ≤ |reportedMsd A unitCell (x ω) fw atoms F τ - A.card * v * τ|}) (fun ω hω => ?_) (measure_ne_top _ _))
    ((measureReal_biUnion_finset_le _ _).trans (Finset.sum_le_sum fun τ hτ => ?_))
  · obtain ⟨D, c, hD, hoff⟩ := hω
    by_contra hall
    simp only [Set.mem_iUnion, Set.mem_ofPred_eq, not_exists, not_le] at hall
    have hmM : (Finset.Icc m M).Nonempty := ⟨m, Finset.mem_Icc.2 ⟨le_rfl, hG.ordered⟩⟩
    set R : ℝ := (Finset.Icc m M).sup' hmM fun τ => |reportedMsd A unitCell (x ω) fw atoms F τ - A.card * v * τ| with hR
    have hRη : R < η := (Finset.sup'_lt_iff hmM).2 fun τ hτ => hall τ hτ
    have hRle : ∀ τ ∈ Finset.Icc m M, |reportedMsd A unitCell (x ω) fw atoms F τ - A.card * v * τ| ≤ R := fun τ hτ =>
      Finset.le_sup' (fun τ : ℕ => |reportedMsd A unitCell (x ω) fw atoms F τ - A.card * v * τ|) hτ
    have hR0 : 0 ≤ R := (abs_nonneg _).trans (hRle m (Finset.mem_Icc.2 ⟨le_rfl, hG.ordered⟩))
    obtain ⟨B₀, hB, hZd, hmsd⟩ := diffusion_inv (hZ ω)
    obtain ⟨taus, ha, -, ht⟩ := grid_base hS hF hG (hst ω) (hbase ω) hB
    obtain ⟨hn, hd⟩ := msd_of_path ht ha.sorted hblock hsub hmsd
    set ρ := resolved atoms.length F taus with hρ
    have hmem : ∀ (i τ : ℕ), ρ[i]? = some τ → τ ∈ Finset.Icc m M := by
      intro i τ hi
      have := ha.range τ (List.mem_filter.mp (List.mem_of_getElem? hi)).1
      exact Finset.mem_Icc.2 ⟨this.1, this.2.1⟩
    have hdt : ∀ (i : ℕ) (t : ℝ), (Z ω).diff.dt[i]? = some t → ∃ τ : ℕ, ρ[i]? = some τ ∧ t = τ * δ := by
      intro i t hi
      rw [hd, List.getElem?_map] at hi
      obtain ⟨τ, h1, rfl⟩ := Option.map_eq_some_iff.1 hi
      exact ⟨τ, h1, by rw [hδ]; ring⟩
    obtain ⟨t₀, h0⟩ : ∃ t₀, (Z ω).diff.dt[r]? = some t₀ := by
      obtain ⟨w, k, W, ld, best, hl, hk, -⟩ := hD
      have : (Z ω).diff.dt.length = (Z ω).diff.n.length := by rw [hd, hn, List.length_map, List.length_map]
      exact ⟨_, List.getElem?_eq_getElem (by omega)⟩
    obtain ⟨τ₀, hτ0, ht0⟩ := hdt r t₀ h0
    have hτm := Finset.mem_Icc.1 (hmem _ _ hτ0)
    have key : |D - A.card * v / δ| ≤ (1 + 2 * M) * R / t₀ := by
      obtain ⟨κ, hκ⟩ := path_constant hG.fl hG.sampling hG.pos (charge := .scalar 1) (hbase ω) hsub (.inl (hZ ω)) (fun τ hτ => (ht.range τ hτ).1) ha.sorted (by rw [hZd]; exact ht.deltaT)
      refine fit_line_error hD (by rw [hd, hn, List.length_map, List.length_map]) κ hκ ?_ (A.card * v / δ) 0 R (2 * M) (by positivity) ?_ ?_ h0
      · intro t ht'
        obtain ⟨i, hi⟩ := List.mem_iff_getElem?.1 ht'
        obtain ⟨τ, h1, rfl⟩ := hdt i t hi
        have : (0 : ℝ) < τ := by exact_mod_cast lt_of_lt_of_le hm1 (Finset.mem_Icc.1 (hmem i τ h1)).1
        positivity
      · intro i t y _ h1 h2
        obtain ⟨τ, h3, rfl⟩ := hdt i t h1
        rw [hn, List.getElem?_map, h3] at h2
        obtain rfl := Option.some.inj h2
        have e : A.card * v / δ * (τ * δ) + 0 = A.card * v * τ := by field_simp; ring
        rw [e]
        exact hRle τ (hmem i τ h3)
      · intro i t t' _ h1 h2 hne'
        obtain ⟨τ, h3, rfl⟩ := hdt i t h1
        obtain ⟨τ', h4, rfl⟩ := hdt (i + 1) t' h2
        have hb1 : (τ : ℝ) ≤ M := by exact_mod_cast (Finset.mem_Icc.1 (hmem i τ h3)).2
        have hb2 : (τ' : ℝ) ≤ M := by exact_mod_cast (Finset.mem_Icc.1 (hmem _ τ' h4)).2
        have hgap : (1 : ℝ) ≤ |(τ' : ℝ) - τ| := by
          have : τ' ≠ τ := fun e => hne' (by rw [e])
          have h5 : (1 : ℤ) ≤ |(τ' : ℤ) - τ| := Int.one_le_abs (sub_ne_zero.2 (by exact_mod_cast this))
          exact_mod_cast h5
        rw [← sub_mul, abs_mul, abs_of_pos hδ0]
        have hM0 : (0 : ℝ) ≤ M := Nat.cast_nonneg M
        nlinarith [mul_le_mul_of_nonneg_left hgap (by positivity : (0 : ℝ) ≤ 2 * M * δ)]
    have hm0' : (m : ℝ) ≤ τ₀ := by exact_mod_cast hτm.1
    have hlt : (1 + 2 * M) * R / t₀ < ε := by
      rw [ht0, div_lt_iff₀ (mul_pos (lt_of_lt_of_le hm0 hm0') hδ0)]
      have e : (1 + 2 * (M : ℝ)) * η = ε * (m * δ) := by rw [hη]; field_simp
      calc (1 + 2 * (M : ℝ)) * R < (1 + 2 * M) * η := mul_lt_mul_of_pos_left hRη (by positivity)
        _ = ε * (m * δ) := e
        _ ≤ ε * (τ₀ * δ) := mul_le_mul_of_nonneg_left (mul_le_mul_of_nonneg_right hm0' hδ0.le) hε.le
    exact absurd (hoff.trans key) (not_le.2 hlt)
  · obtain ⟨h3, h4⟩ := Finset.mem_Icc.1 hτ
    exact value_off h hC hs hnd hne hξ A (by omega) (by omega) hη0

/-- **C140, limit with an intercept.** One walk is analysed from its first `F` frames, for every `F`, with the same intervals and the default fit.  The probability that the gradient is off by `ε` or more tends to zero. -/
theorem C140_line_limit (μ : Measure Ω) [IsProbabilityMeasure μ] (E : Num ℝ) (P : ℕ → Params ℝ) (S : Select ℝ) (sy : List String) (atoms fw : List ℕ) (hS : Picks S sy atoms fw) (hnd : atoms.Nodup)
    (hne : atoms ≠ []) (m M : ℕ) (hG : ∀ F, M ≤ F → UserGrid E (P F) F m M) (C : Ω → ℕ → M3 ℝ) (V : Ω → ℕ → ℝ) (s x : Ω → ℕ → ℕ → V3 ℝ)
    (hst : ∀ F ω, StoredIn F sy.length (C ω) (s ω) (x ω)) (ξ : ℕ × ℕ × Fin 3 → Ω → ℝ) (h : RandomWalk μ ξ) (v C₄ : ℝ) (hC : 0 ≤ C₄) (hs : StepMoments μ ξ v C₄)
    (hξ : ∀ i ∈ atoms, ∀ j l ω, walkStep unitCell x fw i j l ω = ξ (i, j, l) ω) (sq : ℝ → ℝ) (o : Oracle ℝ G) (U : UncParams ℝ) (hblock : U.opt.block = false) (hsub : U.sub = 1) (base : ℕ → Ω → PyM (Base ℝ)) (unit : ℝ)
    (hbase : ∀ F ω, ReadFrames E (P F) S (cellFrames F sy (C ω) (V ω) (s ω)) (cellUniverse F sy (C ω) (V ω) (s ω)) (base F ω) unit) (g g' : ℕ → Ω → G) (Z : ℕ → Ω → Analyzer ℝ)
    (hZ : ∀ F, 2 ≤ F → M ≤ F → ∀ ω, diffusionAnalyzer sq o (g F ω) U (base F ω) = .ok (Z F ω, g' F ω)) (r : ℕ) (δ : ℝ) (hδ : ∀ F, δ = (P F).stepSkip.val * (P F).timeStep.val / unit) (ε : ℝ) (hε : 0 < ε) :
    Filter.Tendsto (fun F => μ.real {ω | ∃ D c, FittedLine (Z F ω).diff r D c ∧ ε ≤ |D - (axesOf U.dimension).card * v / δ|}) Filter.atTop (nhds 0) := by
  have l2 : Filter.Tendsto (fun F => ∑ τ ∈ Finset.Icc m M, mseBound (axesOf U.dimension) v C₄ atoms.length τ F / (ε * m * δ / (1 + 2 * M)) ^ 2) Filter.atTop (nhds 0) := by
    have := tendsto_finsetSum (Finset.Icc m M) fun τ _ => (mseBound_tendsto (axesOf U.dimension) v C₄ atoms.length τ).div_const ((ε * m * δ / (1 + 2 * M)) ^ 2)
    simpa using this
  refine tendsto_of_tendsto_of_tendsto_of_le_of_le' tendsto_const_nhds l2 (Filter.Eventually.of_forall fun F => measureReal_nonneg) ((Filter.eventually_ge_atTop (max 2 M)).mono fun F hF => ?_)
  have hF2 := (le_max_left 2 M).trans hF
  have hFM := (le_max_right 2 M).trans hF
  exact C140_line_error μ E (P F) S sy atoms fw hS hnd hne F m M hF2 hFM (hG F hFM) C V s x (hst F) ξ h v C₄ hC hs hξ sq o U hblock hsub (base F) unit (hbase F) (g F) (g' F) (Z F) (hZ F hF2 hFM) r δ (hδ F) ε hε

/-! ### Example: two atoms, steps by fair coins -/

/-- Atoms 0 and 1 make steps of `±1/4` along every axis at every frame, atom 2 rests. -/
noncomputable def exLongTwo (ω : ℕ × ℕ × Fin 3 → Bool) (i j : ℕ) : V3 ℝ := fun k =>
  if i < 2 then ∑ s ∈ Finset.range j, exSign (ω (i, s, k)) else 0

theorem exLongTwo_step (i j : ℕ) (l : Fin 3) (ω : ℕ × ℕ × Fin 3 → Bool) (hi : i ∈ [0, 1]) : walkStep exCube exLongTwo [2] i j l ω = exSign (ω (i, j, l)) := by
  have h2 : i < 2 := by
    simp only [List.mem_cons, List.not_mem_nil, or_false] at hi
    omega
  have hc : ∀ s : V3 ℝ, cart exCube s l = s l := by
    intro s
    unfold cart exCube
    simp
  simp only [walkStep, trueMove, meanOver, hc, exLongTwo]
  simp [Finset.sum_range_succ, h2]

theorem exLongTwo_half (ω : ℕ × ℕ × Fin 3 → Bool) (i j : ℕ) : HalfCell fun k => exLongTwo ω i (j + 1) k - exLongTwo ω i j k := by
  intro k
  simp only [exLongTwo]
  by_cases hi : i < 2
  · rw [if_pos hi, if_pos hi, Finset.sum_range_succ, add_sub_cancel_left]
    cases ω (i, j, k) <;> norm_num [exSign]
  · simp [hi]

theorem exLongTwo_ok (ω : ℕ × ℕ × Fin 3 → Bool) (F : ℕ) (hF : 2 ≤ F) : ∃ Z, diffusionAnalyzer id (exOracle ℝ) () exUncR
    (fromAse exNumR (exParamsF F) exSelectR 1 none (.one (wrapped F ["Li", "Li", "O"] exCube 1 (exLongTwo ω) fun _ _ _ => 0))) = .ok (Z, ()) := by
  obtain ⟨n, rfl⟩ : ∃ n, F = n + 1 := ⟨F - 1, by omega⟩
  have hw : wrapped (n + 1) ["Li", "Li", "O"] exCube 1 (exLongTwo ω) (fun _ _ _ => 0) =
      ⟨["Li", "Li", "O"], (List.range 3).map fun i => fun k => exLongTwo ω i 0 k + (((0 : ℤ)) : ℝ), exCube, 1⟩ ::
        (List.range n).map fun j => ⟨["Li", "Li", "O"], (List.range 3).map fun i => fun k => exLongTwo ω i (j + 1) k + (((0 : ℤ)) : ℝ), exCube, 1⟩ := by
    unfold wrapped
    rw [List.range_succ_eq_map, List.map_cons, List.map_map]
    rfl
  rw [hw]
  suffices h : AllAnalyzed (chosen ["Li", "Li", "O"] ["Li"]).length id (exOracle ℝ) () exUncR _ by
    obtain ⟨⟨Z, _, h, -⟩, -⟩ := h
    exact ⟨Z, h⟩
  refine C79_ase exNumR (exParamsF (n + 1)) exSelectR ["Li"] rfl rfl ?_ ?_ 3 _ _ ?_ ?_ ?_ id (exOracle ℝ) () exUncR (.off rfl rfl) le_rfl (by decide +kernel)
  · refine ⟨rfl, ?_, rfl, rfl, rfl, rfl⟩
    simp [exParamsF, PyNum.val]
  · show (1 : ℤ) ≤ ((n + 1 : ℕ) : ℤ)
    omega
  · simp; omega
  · rw [← hw]
    intro f hf
    have hn : NonSingular exCube := by
      unfold NonSingular exCube
      rw [show (Matrix.of fun a b : Fin 3 => if a = b then (1 : ℝ) else 0) = 1 from rfl, Matrix.det_one]
      exact one_ne_zero
    obtain ⟨j, -, rfl⟩ := List.mem_map.mp hf
    exact ⟨rfl, by simp, hn, "Li", by simp, by simp⟩
  · rw [List.length_map, List.length_range]
    show ((3 * 3 * (n + 1) * (n + 1) * 8 : ℕ) : ℝ) ≤ ((3 * 2 * (n + 1) * (n + 1) * 8 : ℕ) : ℝ) * 10 ^ 9
    push_cast
    nlinarith [sq_nonneg ((n : ℝ) + 1)]

/-- The hypotheses hold for the coin walks: the gradient of a fit from 2 frames on is 3/32, but for an error of 1/50 or more whose probability tends to zero, and is at most 1/4 with 100000 frames. -/
example : ∃ Z : ℕ → (ℕ × ℕ × Fin 3 → Bool) → Analyzer ℝ,
    (∀ F, 4 ≤ F → ∀ ω, diffusionAnalyzer id (exOracle ℝ) () exUncR (fromAse exNumR (exParamsF F) exSelectR 1 none (.one (wrapped F ["Li", "Li", "O"] exCube 1 (exLongTwo ω) fun _ _ _ => 0))) = .ok (Z F ω, ())) ∧
    Filter.Tendsto (fun F => exTosses.real {ω | ∃ D, FittedRay (Z F ω).diff 1 D ∧ 1 / 50 ≤ |D - 3 / 32|}) Filter.atTop (nhds 0) ∧
    exTosses.real {ω | ∃ D, FittedRay (Z 100000 ω).diff 1 D ∧ 1 / 50 ≤ |D - 3 / 32|} ≤ 1 / 4 := by
  have hex : ∀ F ω, ∃ Z, 4 ≤ F → diffusionAnalyzer id (exOracle ℝ) () exUncR (fromAse exNumR (exParamsF F) exSelectR 1 none
      (.one (wrapped F ["Li", "Li", "O"] exCube 1 (exLongTwo ω) fun _ _ _ => 0))) = .ok (Z, ()) := by
    intro F ω
    obtain ⟨Z0, -⟩ := exLongTwo_ok ω 2 (by omega)
    by_cases hF : 4 ≤ F
    · obtain ⟨Z, hZ⟩ := exLongTwo_ok ω F (by omega)
      exact ⟨Z, fun _ => hZ⟩
    · exact ⟨Z0, fun h => absurd h hF⟩
  choose Z hZ using hex
  have hax : (axesOf exUncR.dimension).card = 3 := by decide +kernel
  have hg : ∀ F, DefaultGrid exNumR (exParamsF F) := by
    intro F
    refine ⟨rfl, ?_, rfl, rfl, rfl, rfl⟩
    simp [exParamsF, PyNum.val]
  have hb : ∀ F ω, ReadFrom exNumR (exParamsF F) exSelectR F ["Li", "Li", "O"] exCube 1 (exLongTwo ω) (fun _ _ _ => 0)
      (fromAse exNumR (exParamsF F) exSelectR 1 none (.one (wrapped F ["Li", "Li", "O"] exCube 1 (exLongTwo ω) fun _ _ _ => 0))) 1 :=
    fun F ω => Or.inl ⟨rfl, rfl⟩
  have hδ : ∀ F, (2 : ℝ) = (exParamsF F).stepSkip.val * (exParamsF F).timeStep.val / 1 := fun F => by simp [exParamsF, PyNum.val]
  refine ⟨Z, fun F hF ω => hZ F ω hF, ?_, ?_⟩
  · have := C140_limit exTosses exNumR exParamsF exSelectR ["Li", "Li", "O"] [0, 1] [2] (.species ["Li"] rfl rfl) (by simp) (by simp) hg
      (fun F => le_refl _) exCube 1 exLongTwo (fun _ _ _ _ => 0) (fun ω i _ j => exLongTwo_half ω i j) _ exTosses_walk.1 (1 / 16) (1 / 256)
      (by norm_num) exTosses_walk.2 (fun i hi j l ω => exLongTwo_step i j l ω hi) id (exOracle ℝ) exUncR rfl rfl _ 1 hb
      (fun _ _ => ()) (fun _ _ => ()) Z 2 (by norm_num) (fun F hF ω => hZ F ω hF) 2 hδ (1 / 50) (by norm_num)
    rw [hax] at this
    norm_num at this ⊢
    exact this
  · have := C140_error exTosses exNumR (exParamsF 100000) exSelectR ["Li", "Li", "O"] [0, 1] [2] (.species ["Li"] rfl rfl) (by simp) (by simp) (hg _) 100000
      (le_refl _) exCube 1 exLongTwo (fun _ _ _ _ => 0) (fun ω i _ j _ => exLongTwo_half ω i j) _ exTosses_walk.1 (1 / 16) (1 / 256)
      (by norm_num) exTosses_walk.2 (fun i hi j l ω => exLongTwo_step i j l ω hi) id (exOracle ℝ) exUncR rfl rfl _ 1 (hb 100000)
      (fun _ => ()) (fun _ => ()) (Z 100000) (fun ω => hZ 100000 ω (by norm_num)) 2 (by norm_num) (by norm_num) 2 (hδ _) (1 / 50) (by norm_num)
    rw [mseBound, hax] at this
    norm_num at this ⊢
    linarith

/-- `FittedRay` can hold: the two atoms of C136 along x, with their measured variances, have the gradient 3/2. -/
example : ∃ b : Boot ℚ, exAxisRun "x" = .ok (b, ()) ∧ FittedRay b 0 (3 / 2) := by
  obtain ⟨b, f, f1, f2, f3, f4, -⟩ := exAxis_x
  have hW := (exAxis_line b _ _ !![13 / 20, 13 / 10, 39 / 20; 13 / 10, 17, 51 / 2; 39 / 20, 51 / 2, 225 / 4] (exAxisP "x") (-13 / 6) f1 f2 f3 f4 rfl rfl (by decide +kernel)
    (by decide +kernel) (by decide +kernel) (by decide +kernel) (by decide +kernel) (by decide +kernel) 0).1
  have hl : b.v.length = b.n.length := by rw [f1, f2]; rfl
  have hm : 2 + 1 = b.n.length - 0 := by rw [f1]; rfl
  have hN : ∀ N ∈ b.nO, 0 < N := by rw [f3]; decide +kernel
  have hv : ∀ i, 0 ≤ i → i < b.n.length → ∃ y, b.v[i]? = some (some y) ∧ 0 < y := by
    intro i _ hi
    rw [f1] at hi
    rw [f2]
    match i, hi with
    | 0, _ => exact ⟨13 / 20, rfl, by norm_num⟩
    | 1, _ => exact ⟨17, rfl, by norm_num⟩
    | 2, _ => exact ⟨225 / 4, rfl, by norm_num⟩
  have := (fit_ray hW hm hl (by rw [f1, f4]; rfl) hv hN 6 (by
    rw [f3, f4]
    intro k t N ht hN
    match k with
    | 0 | 1 | 2 => simp at ht hN; subst ht hN; norm_num
    | k + 3 => simp at ht) (by rw [f4]; decide +kernel) (by rw [f1]; decide +kernel) 0 (3 / 2)).2 (by rw [f1, f4]; norm_num)
  obtain ⟨best, hb⟩ := this
  exact ⟨b, f, b.v, 2, exAxisP "x", 0, best, hl, hm, hW, hv, hN, hb⟩

/-! ### Example with an intercept -/

/-- Intervals of 1, 2 and 3 frames. -/
noncomputable def exParamsM (F : ℕ) : Params ℝ := { exParamsF F with maxDt := some 6, nSteps := 3 }

theorem exParamsM_grid (F : ℕ) (hF : 3 ≤ F) : UserGrid exNumR (exParamsM F) F 1 3 where
  fl := rfl
  pos := by simp [exParamsM, exParamsF, PyNum.val]
  sampling := rfl
  minNonneg := by simp [exParamsM, exParamsF, PyNum.val]
  maxNonneg := by simp [exParamsM, exParamsF, PyNum.val]
  first := by simp [exParamsM, exParamsF, PyNum.val]
  last := by
    simp only [exParamsM, exParamsF, PyNum.val, Option.getD_some]
    norm_num
  ordered := by norm_num
  spacing := .inl rfl

theorem exCube_cart (s : V3 ℝ) (l : Fin 3) : cart exCube s l = s l := by
  unfold cart exCube
  simp

theorem exLongTwo_stored (ω : ℕ × ℕ × Fin 3 → Bool) (F : ℕ) : StoredIn F 3 (fun _ => exCube) (exLongTwo ω) (exLongTwo ω) := by
  intro i _ j _
  refine ⟨⟨_, exLongTwo_half ω i j, fun l => (exCube_cart (fun k => exLongTwo ω i (j + 1) k - exLongTwo ω i j k) l).symm⟩, 0, fun l => ?_⟩
  simp [exCube_cart]

theorem exLongTwo_runs (ω : ℕ × ℕ × Fin 3 → Bool) (F : ℕ) (hF : 3 ≤ F) : ∃ Z, diffusionAnalyzer id (exOracle ℝ) () exUncR
    (fromAse exNumR (exParamsM F) exSelectR 1 none (.one (cellFrames F ["Li", "Li", "O"] (fun _ => exCube) (fun _ => 1) (exLongTwo ω)))) = .ok (Z, ()) := by
  have := C79_bounds_partial exNumR (exParamsM F) exSelectR ["Li", "Li", "O"] [0, 1] [2] (.species ["Li"] rfl rfl) (by simp) (by intro f hf; cases hf) F 1 3
    (exParamsM_grid F hF) (by simp [exParamsM]) (.inr (by simp [exParamsM])) (by omega) hF (by simp; omega) (fun _ => exCube) (fun _ _ => exCube_nonsingular) (fun _ => 1) (exLongTwo ω)
    (by
      show ((3 * 2 * F * F * 8 : ℕ) : ℝ) ≤ ((3 * 2 * F * F * 8 : ℕ) : ℝ) * 10 ^ 9
      push_cast
      nlinarith [sq_nonneg (F : ℝ)])
    _ 1 (.inl ⟨rfl, rfl⟩) (fun h => by norm_num at h) id (exOracle ℝ) () exUncR (.off rfl rfl) le_rfl (by decide +kernel)
  obtain ⟨⟨Z, _, h, -⟩, -⟩ := this
  exact ⟨Z, h⟩

/-- The hypotheses hold for the coin walks: the gradient of the default fit to the intervals of 1, 2 and 3 frames is 3/32, but for an error of 1/50 or more whose probability tends to zero, and is at most 1/10
with 10⁷ frames. -/
example : ∃ Z : ℕ → (ℕ × ℕ × Fin 3 → Bool) → Analyzer ℝ,
    (∀ F, 3 ≤ F → ∀ ω, diffusionAnalyzer id (exOracle ℝ) () exUncR (fromAse exNumR (exParamsM F) exSelectR 1 none
      (.one (cellFrames F ["Li", "Li", "O"] (fun _ => exCube) (fun _ => 1) (exLongTwo ω)))) = .ok (Z F ω, ())) ∧
    Filter.Tendsto (fun F => exTosses.real {ω | ∃ D c, FittedLine (Z F ω).diff 0 D c ∧ 1 / 50 ≤ |D - 3 / 32|}) Filter.atTop (nhds 0) ∧
    exTosses.real {ω | ∃ D c, FittedLine (Z 10000000 ω).diff 0 D c ∧ 1 / 50 ≤ |D - 3 / 32|} ≤ 1 / 10 := by
  have hex : ∀ F ω, ∃ Z, 3 ≤ F → diffusionAnalyzer id (exOracle ℝ) () exUncR (fromAse exNumR (exParamsM F) exSelectR 1 none
      (.one (cellFrames F ["Li", "Li", "O"] (fun _ => exCube) (fun _ => 1) (exLongTwo ω)))) = .ok (Z, ()) := by
    intro F ω
    obtain ⟨Z0, -⟩ := exLongTwo_runs ω 3 (by omega)
    by_cases hF : 3 ≤ F
    · obtain ⟨Z, hZ⟩ := exLongTwo_runs ω F hF
      exact ⟨Z, fun _ => hZ⟩
    · exact ⟨Z0, fun h => absurd h hF⟩
  choose Z hZ using hex
  have hax : (axesOf exUncR.dimension).card = 3 := by decide +kernel
  have hb : ∀ F ω, ReadFrames exNumR (exParamsM F) exSelectR (cellFrames F ["Li", "Li", "O"] (fun _ => exCube) (fun _ => 1) (exLongTwo ω))
      (cellUniverse F ["Li", "Li", "O"] (fun _ => exCube) (fun _ => 1) (exLongTwo ω))
      (fromAse exNumR (exParamsM F) exSelectR 1 none (.one (cellFrames F ["Li", "Li", "O"] (fun _ => exCube) (fun _ => 1) (exLongTwo ω)))) 1 := fun F ω => Or.inl ⟨rfl, rfl⟩
  have hδ : ∀ F, (2 : ℝ) = (exParamsM F).stepSkip.val * (exParamsM F).timeStep.val / 1 := fun F => by simp [exParamsM, exParamsF, PyNum.val]
  refine ⟨Z, fun F hF ω => hZ F ω hF, ?_, ?_⟩
  · have := C140_line_limit exTosses exNumR exParamsM exSelectR ["Li", "Li", "O"] [0, 1] [2] (.species ["Li"] rfl rfl) (by simp) (by simp) 1 3 exParamsM_grid
      (fun _ _ => exCube) (fun _ _ => 1) exLongTwo exLongTwo (fun F ω => exLongTwo_stored ω F) _ exTosses_walk.1 (1 / 16) (1 / 256)
      (by norm_num) exTosses_walk.2 (fun i hi j l ω => exLongTwo_step i j l ω hi) id (exOracle ℝ) exUncR rfl rfl _ 1 hb
      (fun _ _ => ()) (fun _ _ => ()) Z (fun F _ hF ω => hZ F ω hF) 0 2 hδ (1 / 50) (by norm_num)
    rw [hax] at this
    norm_num at this ⊢
    exact this
  · have := C140_line_error exTosses exNumR (exParamsM 10000000) exSelectR ["Li", "Li", "O"] [0, 1] [2] (.species ["Li"] rfl rfl) (by simp) (by simp) 10000000 1 3 (by norm_num) (by norm_num)
      (exParamsM_grid _ (by norm_num))
      (fun _ _ => exCube) (fun _ _ => 1) exLongTwo exLongTwo (fun ω => exLongTwo_stored ω _) _ exTosses_walk.1 (1 / 16) (1 / 256)
      (by norm_num) exTosses_walk.2 (fun i hi j l ω => exLongTwo_step i j l ω hi) id (exOracle ℝ) exUncR rfl rfl _ 1 (hb _)
      (fun _ => ()) (fun _ => ()) (Z 10000000) (fun ω => hZ _ ω (by norm_num)) 0 2 (hδ _) (1 / 50) (by norm_num)
    rw [hax] at this
    norm_num at this ⊢
    refine this.trans ?_
    rw [show Finset.Icc 1 3 = {1, 2, 3} from rfl]
    simp only [mseBound, hax]
    norm_num

end Kinisi
