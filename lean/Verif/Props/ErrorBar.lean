import Verif.Props.Overlap
import Verif.Props.Width
import Verif.Lemmas.PowerSums
import Verif.Spec.ErrorBar

/-!
# Is the error bar of the diffusion coefficient of a random walk right? C158
-/

set_option linter.unusedSectionVars false
set_option linter.unusedVariables false

namespace Kinisi
open MeasureTheory ProbabilityTheory Spec

variable {Ω : Type} [MeasurableSpace Ω] {μ : Measure Ω} [IsProbabilityMeasure μ] {G : Type}

/-- With two atoms every interval has two windows side by side. -/
theorem resolved_pair {N F : ℕ} (hN : 2 ≤ N) : resolved N F ((List.range F).map fun i => i + 1) = (List.range F).map fun i => i + 1 := by
  unfold resolved
  rw [List.filter_eq_self]
  intro t ht
  obtain ⟨i, hi, rfl⟩ := List.mem_map.1 ht
  rw [List.mem_range] at hi
  have : 1 ≤ F / (i + 1) := (Nat.one_le_div_iff (Nat.succ_pos _)).2 hi
  rw [decide_eq_true_eq]
  nlinarith

/-- The lists of an analysis of two or more atoms with all intervals. -/
theorem run_lists {E : Num ℝ} {P : Params ℝ} {S : Select ℝ} {sy : List String} {atoms fw : List ℕ} (hS : Picks S sy atoms fw) (hN : 2 ≤ atoms.length) (hP : DefaultGrid E P) {F : ℕ} (hF : 2 ≤ F)
    (hn : (F : ℤ) ≤ P.nSteps) {L : M3 ℝ} {V : ℝ} {u : ℕ → ℕ → V3 ℝ} {m : ℕ → ℕ → Fin 3 → ℤ} (hstep : ∀ i < sy.length, ∀ j, j + 1 < F → HalfCell fun k => u i (j + 1) k - u i j k)
    {sq : ℝ → ℝ} {o : Oracle ℝ G} {U : UncParams ℝ} (hblock : U.opt.block = false) (hsub : U.sub = 1) {base : PyM (Base ℝ)} {unit : ℝ} (hbase : ReadFrom E P S F sy L V u m base unit)
    {g g' : G} {Z : Analyzer ℝ} (hZ : diffusionAnalyzer sq o g U base = .ok (Z, g')) :
    (InverseCounts Z.diff ∧ Aligned Z.diff) ∧ Z.diff.v.length = Z.diff.n.length ∧ Z.diff.n.length = F ∧ 0 < P.stepSkip.val * P.timeStep.val / unit ∧ ∀ i < F, Z.diff.nO[i]? = Z.nO[i]? := by
  have hu : 0 < unit := by rcases hbase with ⟨-, rfl⟩ | ⟨-, rfl⟩ | ⟨-, rfl⟩ <;> norm_num
  have hc : 0 < P.stepSkip.val * P.timeStep.val / unit := div_pos hP.2.1 hu
  obtain ⟨B, hB, hZB, hm⟩ := diffusion_inv hZ
  obtain ⟨taus, -, ht⟩ := read_base hS hP hF hstep hbase hB
  obtain ⟨e1, e2⟩ := msd_of_parsed ht hblock hsub hm
  have := ht.full hn
  subst this
  have hd : Z.deltaT = ((List.range F).map fun i => i + 1).map fun τ : ℕ => (τ : ℝ) * (P.stepSkip.val * P.timeStep.val / unit) := by
    show Z.toBase.deltaT = _
    rw [hZB, ht.deltaT]
    refine List.map_congr_left fun τ _ => ?_
    ring
  obtain ⟨r1, -⟩ := runs_aligned (charge := .scalar 1) hP.1 hP.2.2.2.2.2 hP.2.1 hbase hsub (.inl hZ) (by
      intro t ht'
      rw [hd, List.map_map] at ht'
      obtain ⟨i, -, rfl⟩ := List.mem_map.1 ht'
      simp only [Function.comp_apply]
      positivity) (by
      rw [hd]
      exact ht.sorted.map _ fun σ τ h => mul_lt_mul_of_pos_right (by exact_mod_cast h) hc)
  have hl : Z.diff.n.length = F := by
    rw [e1, resolved_pair hN, List.length_map, List.length_map, List.length_range]
  obtain ⟨b0, q, -, -, i2, -, b1, -, i3⟩ := msdBootstrap_inv hm
  refine ⟨r1, by rw [i2.lv, i2.ln], hl, hc, fun i hi => ?_⟩
  have hq : q = F := by rw [← hl, i2.ln]
  rw [show Z.nO = B.nO from congrArg Base.nO hZB, i3]
  show (B.nO.take q)[i]? = _
  rw [List.getElem?_take, if_pos (by omega)]

/-- The true variance of the reported MSD is at most that of the average over one window per atom. -/
theorem windowSum_le_all {τ W : ℕ} (h1 : 1 ≤ τ) (hW : 0 < W) : windowSum τ W ≤ W * ((W : ℝ) * (τ : ℝ) ^ 2 - (2 * τ - 1)) := by
  rw [← sum_win τ W h1 hW 0 0, ← sum_stepsIn τ W h1 hW, Finset.mul_sum]
  refine Finset.sum_le_sum fun j _ => ?_
  calc ∑ k ∈ Finset.range W, ((winSet τ (0, j, 0) ∩ winSet τ (0, k, 0)).card : ℝ) ^ 2 ≤ ∑ k ∈ Finset.range W, (stepsIn τ j : ℝ) ^ 2 := by
        refine Finset.sum_le_sum fun k _ => ?_
        have : (winSet τ (0, j, 0) ∩ winSet τ (0, k, 0)).card ≤ stepsIn τ j := by
          rw [← winSet_card τ (0, j, 0)]
          exact Finset.card_le_card Finset.inter_subset_left
        gcongr
    _ = W * (stepsIn τ j : ℝ) ^ 2 := by rw [Finset.sum_const, Finset.card_range, nsmul_eq_mul]

/-- Bounds for the mean of the sample variance, for every interval. -/
theorem varOn_all {d B N W T V E F : ℝ} (hd0 : 0 ≤ d) (hd : d ≤ 3) (hB : 0 ≤ B) (hN : 2 ≤ N) (hT : T = 1 ∨ 2 ≤ T) (hW : 1 ≤ W) (hF : F = W + T - 1) (hV0 : 0 ≤ V)
    (hV : N * W * V ≤ 2 * d * B * (W * T ^ 2 - (2 * T - 1)))
    (hE : (N * W - 1) * E = 2 * d * B * N * (W * T ^ 2 - (2 * T - 1)) + N * d ^ 2 * B * (1 - 1 / W) - N * W * V) :
    (1 - 1 / N) * (2 * d * B) * (T ^ 2 - 2 * T) ≤ E ∧ E ≤ N / (N - 1) * (1 + 1 / (2 * F)) * (2 * d * B) * T ^ 2 := by
  have hT1 : 1 ≤ T := by rcases hT with h | h <;> linarith
  have hN0 : 0 < N := by linarith
  have hW0 : 0 < W := by linarith
  have hF0 : 0 < F := by linarith
  have hK : 0 < N * W - 1 := by nlinarith
  have hdB : 0 ≤ d * B := mul_nonneg hd0 hB
  have hi : 0 ≤ 1 - 1 / W := by
    rw [sub_nonneg, div_le_one hW0]
    exact hW
  have hi1 : 1 - 1 / W ≤ 1 := by
    have : 0 < 1 / W := by positivity
    linarith
  constructor
  · have h0 : 0 ≤ N * d ^ 2 * B * (1 - 1 / W) := mul_nonneg (by positivity) hi
    have h1 : (N - 1) * (2 * d * B) * (W * (T - 1) ^ 2) ≤ (N * W - 1) * E := by
      have a : W * (T - 1) ^ 2 ≤ W * T ^ 2 - (2 * T - 1) := by nlinarith
      have b : 0 ≤ (N - 1) * (2 * d * B) := mul_nonneg (by linarith) (by linarith)
      have c := mul_le_mul_of_nonneg_left a b
      rw [hE]
      linarith
    have e : (1 - 1 / N) * (2 * d * B) * (T ^ 2 - 2 * T) = (N - 1) * (2 * d * B) * (T ^ 2 - 2 * T) / N := by
      field_simp
    rw [e, div_le_iff₀ hN0]
    have c : 0 ≤ (N - 1) * (2 * d * B) := mul_nonneg (by linarith) (by linarith)
    have hE0 : 0 ≤ E := by
      have : 0 ≤ (N - 1) * (2 * d * B) * (W * (T - 1) ^ 2) := mul_nonneg c (by positivity)
      by_contra hneg
      have := mul_neg_of_pos_of_neg hK (not_le.1 hneg)
      linarith
    have f : (N - 1) * (2 * d * B) * (W * (T ^ 2 - 2 * T)) ≤ N * W * E := by
      have g : W * (T ^ 2 - 2 * T) ≤ W * (T - 1) ^ 2 := mul_le_mul_of_nonneg_left (by nlinarith) hW0.le
      have := mul_le_mul_of_nonneg_left g c
      linarith
    have : W * ((N - 1) * (2 * d * B) * (T ^ 2 - 2 * T)) ≤ W * (E * N) := by linarith
    exact le_of_mul_le_mul_left this hW0
  · have hN1 : 0 < N - 1 := by linarith
    have h1 : (N * W - 1) * E ≤ N * W * (1 + 1 / (2 * F)) * (2 * d * B) * T ^ 2 := by
      have hV1 : 0 ≤ N * W * V := by positivity
      have hd2 : N * d ^ 2 * B * (1 - 1 / W) ≤ 3 * (N * (d * B)) * (1 - 1 / W) := by
        have : N * d ^ 2 * B ≤ 3 * (N * (d * B)) := by
          have : 0 ≤ N * (d * B) := by positivity
          nlinarith
        exact mul_le_mul_of_nonneg_right this hi
      have hNd : 0 ≤ N * (d * B) := by positivity
      suffices h : 2 * (W * T ^ 2 - (2 * T - 1)) + 3 * (1 - 1 / W) ≤ 2 * (W * (1 + 1 / (2 * F)) * T ^ 2) by
        have := mul_le_mul_of_nonneg_left h hNd
        rw [hE]
        linarith
      rcases hT with rfl | hT
      · obtain rfl : F = W := by linarith
        have : F * (1 + 1 / (2 * F)) = F + 1 / 2 := by field_simp
        rw [this]
        linarith
      · have : 0 ≤ W * (1 / (2 * F)) * T ^ 2 := by positivity
        nlinarith
    have e : N / (N - 1) * (1 + 1 / (2 * F)) * (2 * d * B) * T ^ 2 = N * (1 + 1 / (2 * F)) * (2 * d * B) * T ^ 2 / (N - 1) := by
      field_simp
    have hR : 0 ≤ N * (1 + 1 / (2 * F)) * (2 * d * B) * T ^ 2 := by
      have : 0 ≤ 2 * d * B := by linarith
      positivity
    rw [e, le_div_iff₀ hN1]
    set R := N * (1 + 1 / (2 * F)) * (2 * d * B) * T ^ 2 with hRd
    have h2 : (N * W - 1) * E ≤ W * R := by
      rw [hRd]
      linarith
    rcases le_total E 0 with hE0 | hE0
    · nlinarith
    · have h3 : (N - 1) * W * E ≤ (N * W - 1) * E := mul_le_mul_of_nonneg_right (by nlinarith) hE0
      have : W * (E * (N - 1)) ≤ W * R := by linarith
      exact le_of_mul_le_mul_left this hW0

/-- A mean of values between bounds that depend on the interval. -/
theorem weighted_bounds {r F : ℕ} (hr : r < F) (hF : 0 < F) {x : ℕ → ℝ} {p q : ℝ} (hp : 0 ≤ p) (hlow : ∀ i < F - r, p * (1 - 2 / ((r + i : ℕ) + 1 : ℝ)) ≤ x i) (hup : ∀ i < F - r, x i ≤ q) :
    p * (1 - 7 / (3 * F)) ≤ weightedMean (fun i => ((r + i : ℕ) + 1 : ℝ) ^ 6) x (F - r) ∧ weightedMean (fun i => ((r + i : ℕ) + 1 : ℝ) ^ 6) x (F - r) ≤ q := by
  have hS : 0 < ∑ i ∈ Finset.range (F - r), ((r + i : ℕ) + 1 : ℝ) ^ 6 := Finset.sum_pos (fun i _ => by positivity) ⟨0, Finset.mem_range.2 (by omega)⟩
  have hF0 : (0 : ℝ) < F := by exact_mod_cast hF
  have h5 := fifth_le_sixth hr.le
  unfold weightedMean
  rw [le_div_iff₀ hS, div_le_iff₀ hS]
  constructor
  · have a : ∑ i ∈ Finset.range (F - r), p * (((r + i : ℕ) + 1 : ℝ) ^ 6 - 2 * ((r + i : ℕ) + 1 : ℝ) ^ 5) ≤ ∑ i ∈ Finset.range (F - r), ((r + i : ℕ) + 1 : ℝ) ^ 6 * x i := by
      refine Finset.sum_le_sum fun i hi => ?_
      have := mul_le_mul_of_nonneg_left (hlow i (Finset.mem_range.1 hi)) (show (0 : ℝ) ≤ ((r + i : ℕ) + 1 : ℝ) ^ 6 by positivity)
      refine le_trans (le_of_eq ?_) this
      have : ((r + i : ℕ) + 1 : ℝ) ≠ 0 := by positivity
      field_simp
    refine le_trans ?_ a
    rw [← Finset.mul_sum, Finset.sum_sub_distrib, ← Finset.mul_sum, mul_assoc]
    refine mul_le_mul_of_nonneg_left ?_ hp
    set S5 := ∑ i ∈ Finset.range (F - r), ((r + i : ℕ) + 1 : ℝ) ^ 5
    set S6 := ∑ i ∈ Finset.range (F - r), ((r + i : ℕ) + 1 : ℝ) ^ 6
    have : 2 * S5 ≤ 7 / (3 * F) * S6 := by
      rw [div_mul_eq_mul_div, le_div_iff₀ (by positivity)]
      linarith
    linarith
  · rw [Finset.mul_sum]
    refine Finset.sum_le_sum fun i hi => ?_
    rw [mul_comm]
    exact mul_le_mul_of_nonneg_right (hup i (Finset.mem_range.1 hi)) (by positivity)

theorem mean_scale {k v c r F : ℝ} (hc : c ≠ 0) (hr : r + 1 ≠ 0) (hF : F - r ≠ 0) : ((r + 1) * c)⁻¹ * (k * v * (r + 1 - 1 / (F - r))) = k * v / c * (1 - 1 / ((r + 1) * (F - r))) := by
  field_simp

set_option maxHeartbeats 800000 in
/-- The fit of the MSD of atoms that make independent normal steps, from what the lists contain. -/
theorem msd_error_bar {ξ : ℕ × ℕ × Fin 3 → Ω → ℝ} (h : RandomWalk μ ξ) {σ : ℝ} (hs : NormalMoments μ ξ σ) {L : M3 ℝ} {u : Ω → ℕ → ℕ → V3 ℝ} {fw atoms : List ℕ} (hnd : atoms.Nodup)
    (hN : 2 ≤ atoms.length) (hξ : ∀ i ∈ atoms, ∀ j l ω, walkStep L u fw i j l ω = ξ (i, j, l) ω) (A : Finset (Fin 3)) {F r : ℕ} (h3 : 3 * (r + 1) ≤ F) {c : ℝ} (hc : 0 < c)
    (a : Ω → ℕ → Arr3 ℝ) (ha : ∀ ω, ∀ i < F, TrueWindows L (u ω) fw atoms F (i + 1) (a ω i)) (b : Ω → Boot ℝ)
    (hb : ∀ ω, (InverseCounts (b ω) ∧ Aligned (b ω)) ∧ (b ω).v.length = (b ω).n.length ∧ (b ω).n.length = F)
    (e2 : ∀ ω, ∀ i < F, (b ω).dt[i]? = some (((i + 1 : ℕ) : ℝ) * c))
    (e3 : ∀ ω, ∀ i < F, (b ω).nO[i]? = some ((atoms.length : ℝ) * ((F : ℝ) / ((i + 1 : ℕ) : ℝ))))
    (e1 : ∀ ω, ∀ i < F, (b ω).n[i]? = some (reportedMsd A L (u ω) fw atoms F (i + 1)))
    (e4 : ∀ ω, ∀ i < F, (b ω).v[i]? = some (some (varOn (pairs (a ω i)) (sqLen A (a ω i)) / ((atoms.length : ℝ) * ((F : ℝ) / ((i + 1 : ℕ) : ℝ))))))
    (lib : Ω → GlsLib ℝ) (hlib : ∀ ω, LeastSquares (lib ω)) (α : Ω → ℝ)
    (hα : ∀ ω, (lib ω).curveFit ((b ω).nO.drop r) ((b ω).dt.drop r) ((b ω).v.drop r) = .ok (α ω)) :
    let N : ℝ := atoms.length
    let γ := fun ω => valuesFrom (b ω) r 0 / timesFrom (b ω) r 0
    let s := fun ω => α ω / (b ω).nO.getD r 0
    (Integrable α μ ∧ (1 - 1 / N) * (1 - 7 / (3 * F)) * walkCoefficient A σ c ≤ ∫ ω, α ω ∂μ ∧ ∫ ω, α ω ∂μ ≤ N / (N - 1) * (1 + 1 / (2 * F)) * walkCoefficient A σ c) ∧
    (MemLp γ 2 μ ∧ ∫ ω, γ ω ∂μ = A.card * σ ^ 2 / c * (1 - 1 / ((r + 1) * (F - r)))) ∧
    Integrable s μ ∧ (1 - 1 / N) * (1 - 7 / (3 * F)) * Var[γ; μ] ≤ ∫ ω, s ω ∂μ ∧ ∫ ω, s ω ∂μ ≤ 3 / 2 * (N / (N - 1) * (1 + 1 / (2 * F))) * Var[γ; μ] := by
  intro N γ s
  have hne : atoms ≠ [] := by
    rintro rfl
    simp at hN
  have hF0 : (0 : ℝ) < F := by exact_mod_cast (by omega : 0 < F)
  have hN2 : (2 : ℝ) ≤ N := by
    show (2 : ℝ) ≤ (atoms.length : ℝ)
    exact_mod_cast hN
  have hd3 : (A.card : ℝ) ≤ 3 := by exact_mod_cast (A.card_le_univ.trans (by simp))
  -- the quantities of interval `r + i`
  have hT : ∀ ω, ∀ i < F - r, timesFrom (b ω) r i = ((r + i : ℕ) + 1 : ℝ) * c := by
    intro ω i hi
    unfold timesFrom
    rw [List.getD_eq_getElem?_getD, e2 ω (r + i) (by omega), Option.getD_some]
    push_cast
    ring
  have hO : ∀ ω, ∀ i < F - r, (b ω).nO.getD (r + i) 0 = N * (F / ((r + i : ℕ) + 1 : ℝ)) := by
    intro ω i hi
    rw [List.getD_eq_getElem?_getD, e3 ω (r + i) (by omega), Option.getD_some]
    push_cast
    ring
  have hown : ∀ ω, ∀ i < F - r, ownCoefficient (b ω) r i = varOn (pairs (a ω (r + i))) (sqLen A (a ω (r + i))) / (((r + i : ℕ) + 1 : ℝ) * c) ^ 2 := by
    intro ω i hi
    unfold ownCoefficient
    rw [hT ω i hi, hO ω i hi, List.getD_eq_getElem?_getD, e4 ω (r + i) (by omega), Option.getD_some, Option.getD_some]
    have : N ≠ 0 := by linarith
    have : (((r + i + 1 : ℕ)) : ℝ) = ((r + i : ℕ) + 1 : ℝ) := by push_cast; ring
    rw [this]
    have h1 : ((r + i : ℕ) + 1 : ℝ) ≠ 0 := by positivity
    congr 1
    exact div_mul_cancel₀ _ (by positivity)
  have hNW : ∀ i < F, 2 ≤ atoms.length * (F - (i + 1) + 1) := fun i hi => by nlinarith [Nat.succ_pos (F - (i + 1))]
  -- the fitted coefficient
  have hαe : ∀ ω, α ω = weightedMean (fun i => ((r + i : ℕ) + 1 : ℝ) ^ 6) (fun i => varOn (pairs (a ω (r + i))) (sqLen A (a ω (r + i))) / (((r + i : ℕ) + 1 : ℝ) * c) ^ 2) (F - r) := by
    intro ω
    have := fitted_coefficient (hlib ω) (hb ω).1 (hb ω).2.1 (by rw [(hb ω).2.2]; omega) (hα ω)
    rw [(hb ω).2.2] at this
    have eq : weightedMean (fun i => timesFrom (b ω) r i ^ 6) (ownCoefficient (b ω) r) (F - r) =
        weightedMean (fun i => ((r + i : ℕ) + 1 : ℝ) ^ 6) (fun i => varOn (pairs (a ω (r + i))) (sqLen A (a ω (r + i))) / (((r + i : ℕ) + 1 : ℝ) * c) ^ 2) (F - r) := by
      unfold weightedMean
      have x1 : ∑ i ∈ Finset.range (F - r), timesFrom (b ω) r i ^ 6 = (∑ i ∈ Finset.range (F - r), ((r + i : ℕ) + 1 : ℝ) ^ 6) * c ^ 6 := by
        rw [Finset.sum_mul]
        exact Finset.sum_congr rfl fun i hi => by rw [hT ω i (Finset.mem_range.1 hi)]; ring
      have x2 : ∑ i ∈ Finset.range (F - r), timesFrom (b ω) r i ^ 6 * ownCoefficient (b ω) r i =
          (∑ i ∈ Finset.range (F - r), ((r + i : ℕ) + 1 : ℝ) ^ 6 * (varOn (pairs (a ω (r + i))) (sqLen A (a ω (r + i))) / (((r + i : ℕ) + 1 : ℝ) * c) ^ 2)) * c ^ 6 := by
        rw [Finset.sum_mul]
        exact Finset.sum_congr rfl fun i hi => by rw [hT ω i (Finset.mem_range.1 hi), hown ω i (Finset.mem_range.1 hi)]; ring
      rw [x1, x2, mul_div_mul_right _ _ (pow_pos hc 6).ne']
    rw [this, eq]
    refine max_eq_right ?_
    unfold weightedMean
    refine div_nonneg (Finset.sum_nonneg fun i hi => mul_nonneg (by positivity) (div_nonneg ?_ (by positivity))) (Finset.sum_nonneg fun i _ => by positivity)
    refine varOn_nonneg ?_
    have hi' := Finset.mem_range.1 hi
    have := ha ω (r + i) (by omega)
    unfold pairs
    rw [this.1, this.2.1, Finset.card_product, Finset.card_range, Finset.card_range]
    exact hNW _ (by omega)
  have hmean : ∀ i < F - r, Integrable (fun ω => varOn (pairs (a ω (r + i))) (sqLen A (a ω (r + i)))) μ ∧
      (1 - 1 / N) * (2 * A.card * σ ^ 4) * ((((r + i : ℕ) + 1 : ℝ)) ^ 2 - 2 * ((r + i : ℕ) + 1 : ℝ)) ≤ ∫ ω, varOn (pairs (a ω (r + i))) (sqLen A (a ω (r + i))) ∂μ ∧
      ∫ ω, varOn (pairs (a ω (r + i))) (sqLen A (a ω (r + i))) ∂μ ≤ N / (N - 1) * (1 + 1 / (2 * F)) * (2 * A.card * σ ^ 4) * ((r + i : ℕ) + 1 : ℝ) ^ 2 := by
    intro i hi
    obtain ⟨i1, i2⟩ := mean_varOn_win h hs hnd hne hξ A (τ := r + i + 1) (by omega) (show r + i + 1 ≤ F by omega) (hNW _ (by omega)) (fun ω => a ω (r + i)) (fun ω => ha ω (r + i) (by omega))
    refine ⟨i1, ?_⟩
    obtain ⟨-, v⟩ := reportedMsd_var (F := F) h hs hnd hne hξ A (τ := r + i + 1) (by omega)
    have hw := windowSum_le_all (τ := r + i + 1) (W := F - (r + i + 1) + 1) (by omega) (by omega)
    have hW1 : (1 : ℝ) ≤ ((F - (r + i + 1) + 1 : ℕ) : ℝ) := by exact_mod_cast Nat.succ_pos _
    have eF : (F : ℝ) = ((F - (r + i + 1) + 1 : ℕ) : ℝ) + ((r + i + 1 : ℕ) : ℝ) - 1 := by
      push_cast [Nat.cast_sub (show r + i + 1 ≤ F by omega)]
      ring
    have eT : ((r + i : ℕ) + 1 : ℝ) = ((r + i + 1 : ℕ) : ℝ) := by push_cast; ring
    rw [eT]
    refine varOn_all (d := A.card) (B := σ ^ 4) (N := N) (Nat.cast_nonneg _) hd3 (by positivity) hN2 ?_ hW1 eF (variance_nonneg _ _) ?_ i2
    · rcases Nat.eq_zero_or_pos (r + i) with h0 | h0
      · left
        rw [h0]
        simp
      · right
        exact_mod_cast (by omega : 2 ≤ r + i + 1)
    · rw [v]
      have hW0 : (0 : ℝ) < ((F - (r + i + 1) + 1 : ℕ) : ℝ) := by linarith
      have hN0 : (0 : ℝ) < atoms.length := by
        have : (2 : ℝ) ≤ (atoms.length : ℝ) := hN2
        linarith
      set W := ((F - (r + i + 1) + 1 : ℕ) : ℝ) with hWd
      have e : N * W * (2 * A.card * σ ^ 4 * windowSum (r + i + 1) (F - (r + i + 1) + 1) / (atoms.length * W ^ 2)) = 2 * A.card * σ ^ 4 * (windowSum (r + i + 1) (F - (r + i + 1) + 1) / W) := by
        show (atoms.length : ℝ) * W * _ = _
        field_simp
      rw [e]
      refine mul_le_mul_of_nonneg_left ?_ (by positivity)
      rw [div_le_iff₀ hW0, mul_comm]
      exact hw
  have hαi : Integrable α μ := by
    rw [show α = _ from funext hαe]
    unfold weightedMean
    refine Integrable.div_const (integrable_finsetSum _ fun i hi => ?_) _
    exact ((hmean i (Finset.mem_range.1 hi)).1.div_const _).const_mul _
  have hαm : ∫ ω, α ω ∂μ = weightedMean (fun i => ((r + i : ℕ) + 1 : ℝ) ^ 6) (fun i => (∫ ω, varOn (pairs (a ω (r + i))) (sqLen A (a ω (r + i))) ∂μ) / (((r + i : ℕ) + 1 : ℝ) * c) ^ 2) (F - r) := by
    simp only [hαe]
    unfold weightedMean
    rw [integral_div, integral_finsetSum _ fun i hi => ((hmean i (Finset.mem_range.1 hi)).1.div_const _).const_mul _]
    congr 1
    refine Finset.sum_congr rfl fun i _ => ?_
    rw [integral_const_mul, integral_div]
  have hw0 : 0 ≤ walkCoefficient A σ c := by
    unfold walkCoefficient
    positivity
  have hone : 0 ≤ 1 - 1 / N := by
    rw [sub_nonneg, div_le_one (by linarith)]
    linarith
  obtain ⟨b1, b2⟩ := weighted_bounds (r := r) (F := F) (by omega) (by omega) (p := (1 - 1 / N) * walkCoefficient A σ c) (q := N / (N - 1) * (1 + 1 / (2 * F)) * walkCoefficient A σ c)
    (x := fun i => (∫ ω, varOn (pairs (a ω (r + i))) (sqLen A (a ω (r + i))) ∂μ) / (((r + i : ℕ) + 1 : ℝ) * c) ^ 2) (mul_nonneg hone hw0) (by
      intro i hi
      have ht : (0 : ℝ) < ((r + i : ℕ) + 1 : ℝ) := by positivity
      rw [le_div_iff₀ (by positivity)]
      refine le_trans (le_of_eq ?_) (hmean i hi).2.1
      unfold walkCoefficient
      field_simp) (by
      intro i hi
      have ht : (0 : ℝ) < ((r + i : ℕ) + 1 : ℝ) := by positivity
      rw [div_le_iff₀ (by positivity)]
      refine (hmean i hi).2.2.trans (le_of_eq ?_)
      unfold walkCoefficient
      field_simp)
  rw [← hαm] at b1 b2
  have b1' : (1 - 1 / N) * (1 - 7 / (3 * F)) * walkCoefficient A σ c ≤ ∫ ω, α ω ∂μ := by linarith
  -- the gradient
  obtain ⟨m1, m2⟩ := reportedMsd_var (F := F) h hs hnd hne hξ A (τ := r + 1) (by omega)
  obtain ⟨v1, v2⟩ := var_bounds A σ (N := atoms.length) (F := F) (τ := r + 1) (by omega) (by omega) h3
  rw [← m2] at v1 v2
  have hγ : γ = fun ω => (((r : ℝ) + 1) * c)⁻¹ * reportedMsd A L (u ω) fw atoms F (r + 1) := by
    funext ω
    show valuesFrom (b ω) r 0 / timesFrom (b ω) r 0 = _
    rw [hT ω 0 (by omega)]
    unfold valuesFrom
    rw [List.getD_eq_getElem?_getD, Nat.add_zero, e1 ω r (by omega), Option.getD_some, div_eq_inv_mul]
  have hs' : s = fun ω => α ω / (N * (F / ((r : ℝ) + 1))) := by
    funext ω
    show α ω / (b ω).nO.getD r 0 = _
    have := hO ω 0 (by omega)
    rw [Nat.add_zero] at this
    rw [this]
  have hVar : Var[γ; μ] = (((r : ℝ) + 1) * c)⁻¹ ^ 2 * Var[fun ω => reportedMsd A L (u ω) fw atoms F (r + 1); μ] := by
    rw [hγ, variance_const_mul]
  have hside : (((r : ℝ) + 1) * c)⁻¹ ^ 2 * sideBySideVar A σ atoms.length F (r + 1) = walkCoefficient A σ c / (N * (F / ((r : ℝ) + 1))) := by
    unfold sideBySideVar walkCoefficient
    push_cast
    show (((r : ℝ) + 1) * c)⁻¹ ^ 2 * (2 * A.card * σ ^ 4 * ((r : ℝ) + 1) ^ 2 / (N * (F / ((r : ℝ) + 1)))) = _
    have : N ≠ 0 := by linarith
    field_simp
  have hcoef : 0 ≤ (((r : ℝ) + 1) * c)⁻¹ ^ 2 := by positivity
  have w1 : 2 / 3 * (walkCoefficient A σ c / (N * (F / ((r : ℝ) + 1)))) ≤ Var[γ; μ] := by
    rw [hVar, ← hside]
    have := mul_le_mul_of_nonneg_left v1 hcoef
    linarith
  have w2 : Var[γ; μ] ≤ walkCoefficient A σ c / (N * (F / ((r : ℝ) + 1))) := by
    rw [hVar, ← hside]
    exact mul_le_mul_of_nonneg_left v2 hcoef
  have hno : 0 < N * (F / ((r : ℝ) + 1)) := by positivity
  have hst : StepMoments μ ξ (σ ^ 2) (3 * σ ^ 4) := ⟨hs.second, fun i => (hs.fourth i).le⟩
  refine ⟨⟨hαi, b1', b2⟩, ⟨by rw [hγ]; exact m1.const_mul _, ?_⟩, by rw [hs']; exact hαi.div_const _, ?_, ?_⟩
  · rw [hγ, integral_const_mul, reportedMsd_mean (uncorrelated_of_walk h hst hξ (F - 1)) hne A (by omega) (show r + 1 ≤ F by omega)]
    have eW : ((F - (r + 1) + 1 : ℕ) : ℝ) = F - r := by
      push_cast [Nat.cast_sub (show r + 1 ≤ F by omega)]
      ring
    have hFr : (F : ℝ) - r ≠ 0 := by
      rw [← eW]
      exact (Nat.cast_pos.2 (Nat.succ_pos (F - (r + 1)))).ne'
    rw [eW, Nat.cast_add, Nat.cast_one]
    exact mean_scale hc.ne' (by positivity) hFr
  · rw [hs', integral_div, le_div_iff₀ hno]
    have h7 : 0 ≤ 1 - 7 / (3 * (F : ℝ)) := by
      rw [sub_nonneg, div_le_one (by positivity)]
      have : (3 : ℝ) ≤ F := by exact_mod_cast (by omega : 3 ≤ F)
      linarith
    rw [le_div_iff₀ hno] at w2
    have := mul_le_mul_of_nonneg_left w2 (mul_nonneg hone h7)
    linarith
  · rw [hs', integral_div, div_le_iff₀ hno]
    rw [← mul_div_assoc, div_le_iff₀ hno] at w1
    have hq : 0 ≤ N / (N - 1) * (1 + 1 / (2 * (F : ℝ))) := by
      have : 0 < N - 1 := by linarith
      positivity
    have := mul_le_mul_of_nonneg_left w1 hq
    linarith

/-- **C158.** The atoms, two or more, make independent normal steps of variance `σ²` along every axis, relative to the framework.  An analysis of `F` frames with all intervals is fitted with the random walk model from the interval `r` on, which has at most
a third of the frames, with `curve_fit` as documented.  Then the fitted coefficient is on average that of the walk, apart from factors that tend to 1 with many atoms and frames, although the variances that it is fitted to come from overlapping windows and the longest
intervals decide (C155).  The gradient that the fit without an intercept reports (`y₀ / t₀`, C156) has almost the mean of the walk; the variance `α / n₀` that its samples have (C156) is on average not below the true variance of the gradient, apart from such a
factor, and not above 3/2 of it, apart from such a factor. -/
theorem C158_error_bar (μ : Measure Ω) [IsProbabilityMeasure μ] (E : Num ℝ) (P : Params ℝ) (S : Select ℝ) (sy : List String)
    (atoms fw : List ℕ) (hS : Picks S sy atoms fw) (hnd : atoms.Nodup) (hN : 2 ≤ atoms.length) (hP : DefaultGrid E P) (F : ℕ)
    (hn : (F : ℤ) ≤ P.nSteps) (L : M3 ℝ) (V : ℝ) (u : Ω → ℕ → ℕ → V3 ℝ) (m : Ω → ℕ → ℕ → Fin 3 → ℤ)
    (hstep : ∀ ω, ∀ i < sy.length, ∀ j, j + 1 < F → HalfCell fun k => u ω i (j + 1) k - u ω i j k)
    (ξ : ℕ × ℕ × Fin 3 → Ω → ℝ) (h : RandomWalk μ ξ) (σ : ℝ) (hs : NormalMoments μ ξ σ)
    (hξ : ∀ i ∈ atoms, ∀ j l ω, walkStep L u fw i j l ω = ξ (i, j, l) ω)
    (sq : ℝ → ℝ) (hsq : IsSqrt sq) (o : Oracle ℝ G) (U : UncParams ℝ) (hblock : U.opt.block = false) (hsub : U.sub = 1)
    (base : Ω → PyM (Base ℝ)) (unit : ℝ) (hbase : ∀ ω, ReadFrom E P S F sy L V (u ω) (m ω) (base ω) unit) (g g' : Ω → G)
    (Z : Ω → Analyzer ℝ) (hZ : ∀ ω, diffusionAnalyzer sq o (g ω) U (base ω) = .ok (Z ω, g' ω)) (r : ℕ) (h3 : 3 * (r + 1) ≤ F)
    (lib : Ω → GlsLib ℝ) (hlib : ∀ ω, LeastSquares (lib ω)) (α : Ω → ℝ)
    (hα : ∀ ω, (lib ω).curveFit ((Z ω).diff.nO.drop r) ((Z ω).diff.dt.drop r) ((Z ω).diff.v.drop r) = .ok (α ω)) :
    let N : ℝ := atoms.length
    let c := P.stepSkip.val * P.timeStep.val / unit
    let A := axesOf U.dimension
    let γ := fun ω => valuesFrom (Z ω).diff r 0 / timesFrom (Z ω).diff r 0
    let s := fun ω => α ω / (Z ω).diff.nO.getD r 0
    (Integrable α μ ∧ (1 - 1 / N) * (1 - 7 / (3 * F)) * walkCoefficient A σ c ≤ ∫ ω, α ω ∂μ ∧ ∫ ω, α ω ∂μ ≤ N / (N - 1) * (1 + 1 / (2 * F)) * walkCoefficient A σ c) ∧
    (MemLp γ 2 μ ∧ ∫ ω, γ ω ∂μ = A.card * σ ^ 2 / c * (1 - 1 / ((r + 1) * (F - r)))) ∧
    Integrable s μ ∧ (1 - 1 / N) * (1 - 7 / (3 * F)) * Var[γ; μ] ≤ ∫ ω, s ω ∂μ ∧ ∫ ω, s ω ∂μ ≤ 3 / 2 * (N / (N - 1) * (1 + 1 / (2 * F))) * Var[γ; μ] := by
  intro N c A γ s
  have hne : atoms ≠ [] := by
    rintro rfl
    simp at hN
  have hlists := fun ω => run_lists (fw := fw) hS hN hP (by omega) hn (hstep ω) hblock hsub (hbase ω) (hZ ω)
  obtain ⟨ω₀⟩ := μ.nonempty_of_neZero
  have hc : 0 < c := (hlists ω₀).2.2.2.1
  have all : ∀ ω i, i < F → ∃ a, _ := fun ω i hi => run_entry_all (fw := fw) hS hne hP hn (hstep ω) hsq hblock hsub (hbase ω) (hZ ω) (by omega) (τ := i + 1) (by omega) (by omega) (by
      rw [resolved_pair hN, Nat.add_sub_cancel, List.getElem?_map, List.getElem?_range hi]
      rfl)
  have : Nonempty (Arr3 ℝ) := ⟨(all ω₀ 0 (by omega)).choose⟩
  choose! a ha e1 e2 e3 e4 using all
  simp only [Nat.add_sub_cancel] at e1 e2 e3 e4
  exact msd_error_bar h hs hnd hN hξ A h3 hc a ha (fun ω => (Z ω).diff) (fun ω => ⟨(hlists ω).1, (hlists ω).2.1, (hlists ω).2.2.1⟩)
    (fun ω i hi => by rw [e2 ω i hi]; congr 1; show _ = _ * (_ / _); ring) (fun ω i hi => by rw [(hlists ω).2.2.2.2 i hi]; exact e3 ω i hi) e1 e4 lib hlib α hα

/-- **C158, the fit.** The quantities of `C158_error_bar` in a fit without an intercept (`model=True`, the default `cond_max` keeping the matrix): `popt` is the coefficient that `curve_fit` gives for the intervals from `r` on, and, if it is positive, the sampler samples
a normal distribution with mean `y₀ / t₀` and variance `α / n₀`. -/
theorem C158_fit {K : Type} [Field K] [LinearOrder K] [IsStrictOrderedRing K] [FloorRing K] {L : GlsLib K} {a : GlsArgs K} {b b' : Boot K} (h : bootstrapGLS L a b = (b', .ok ())) (hm : a.model = true) (hcov : b'.covariance = b'.npdCovariance)
    (hinv : ∀ m A P, PD A → L.pinvh m A = .ok P → A * P = 1) (hmin : ∀ f x y, L.minimize f x = .ok y → y.length = x.length) (hb : InverseCounts b ∧ Aligned b) :
    ∃ (r : ℕ) (α : K), diffRegime b.dt a.startDt = .ok r ∧ L.curveFit (b.nO.drop r) (b.dt.drop r) (b.v.drop r) = .ok α ∧ b'.popt = some α ∧
      (0 < α → ∃ ll, Samples L a b' ll ∧ RayVariance ll (valuesFrom b r 0 / timesFrom b r 0) (α / b.nO.getD r 0)) := by
  obtain ⟨r, α, h1, h2, h3⟩ := bootstrapGLS_coefficient h hm
  refine ⟨r, α, h1, h2, h3, fun hα => ?_⟩
  obtain ⟨r', ll, q1, q2, q3, -⟩ := C156_fit h hm hcov hinv hmin α h3 hα hb
  rw [h1] at q1
  obtain rfl := Except.ok.inj q1
  exact ⟨ll, q2, q3⟩

/-! ### Example: two atoms with the steps of C157 -/

/-- Atoms 0 and 1 hop, atom 2 rests. -/
noncomputable def exTwoLeaping (ω : ℕ × ℕ × Fin 3 → Fin 3) (i j : ℕ) : V3 ℝ := fun k =>
  if i < 2 then ∑ s ∈ Finset.range j, exLeap (ω (i, s, k)) else 0

theorem exTwoLeaping_step (i j : ℕ) (l : Fin 3) (ω : ℕ × ℕ × Fin 3 → Fin 3) (hi : i ∈ [0, 1]) :
    walkStep exCube exTwoLeaping [2] i j l ω = exLeap (ω (i, j, l)) := by
  have hi : i < 2 := by
    rcases List.mem_cons.1 hi with rfl | hi
    · omega
    · rw [List.mem_singleton] at hi
      omega
  have hc : ∀ s : V3 ℝ, cart exCube s l = s l := by
    intro s
    unfold cart exCube
    simp
  simp only [walkStep, trueMove, meanOver, hc, exTwoLeaping, hi, if_true]
  simp [Finset.sum_range_succ]

theorem exTwoLeaping_half (ω : ℕ × ℕ × Fin 3 → Fin 3) (i j : ℕ) : HalfCell fun k => exTwoLeaping ω i (j + 1) k - exTwoLeaping ω i j k := by
  intro k
  simp only [exTwoLeaping]
  by_cases hi : i < 2
  · rw [if_pos hi, if_pos hi, Finset.sum_range_succ, add_sub_cancel_left]
    unfold exLeap
    split_ifs <;> norm_num
  · simp [hi]

theorem exTwoLeaping_all (ω : ℕ × ℕ × Fin 3 → Fin 3) (F : ℕ) (hF : 2 ≤ F) : AllAnalyzed (chosen ["Li", "Li", "O"] ["Li"]).length Real.sqrt (exOracle ℝ) () exUncR
    (fromAse exNumR (exParamsF F) exSelectR 1 none (.one (wrapped F ["Li", "Li", "O"] exCube 1 (exTwoLeaping ω) fun _ _ _ => 0))) := by
  obtain ⟨n, rfl⟩ : ∃ n, F = n + 1 := ⟨F - 1, by omega⟩
  have hw : wrapped (n + 1) ["Li", "Li", "O"] exCube 1 (exTwoLeaping ω) (fun _ _ _ => 0) =
      ⟨["Li", "Li", "O"], (List.range 3).map fun i => fun k => exTwoLeaping ω i 0 k + (((0 : ℤ)) : ℝ), exCube, 1⟩ ::
        (List.range n).map fun j => ⟨["Li", "Li", "O"], (List.range 3).map fun i => fun k => exTwoLeaping ω i (j + 1) k + (((0 : ℤ)) : ℝ), exCube, 1⟩ := by
    unfold wrapped
    rw [List.range_succ_eq_map, List.map_cons, List.map_map]
    rfl
  rw [hw]
  refine C79_ase exNumR (exParamsF (n + 1)) exSelectR ["Li"] rfl rfl ?_ ?_ 3 _ _ ?_ ?_ ?_ Real.sqrt (exOracle ℝ) () exUncR (.off rfl rfl) le_rfl
    (by decide +kernel)
  · refine ⟨rfl, ?_, rfl, rfl, rfl, rfl⟩
    simp [exParamsF, PyNum.val]
  · show (1 : ℤ) ≤ ((n + 1 : ℕ) : ℤ)
    omega
  · simp; omega
  · rw [← hw]
    intro f hf
    have hn : NonSingular exCube := by
      unfold NonSingular exCube
      rw [show (Matrix.of fun a b : Fin 3 => if a = b then (1 : ℝ) else 0) = 1 from rfl, Matrix.det_one]
      exact one_ne_zero
    obtain ⟨j, -, rfl⟩ := List.mem_map.mp hf
    exact ⟨rfl, by simp, hn, "Li", by simp, by simp⟩
  · rw [List.length_map, List.length_range]
    show ((3 * 3 * (n + 1) * (n + 1) * 8 : ℕ) : ℝ) ≤ ((3 * 2 * (n + 1) * (n + 1) * 8 : ℕ) : ℝ) * 10 ^ 9
    push_cast
    nlinarith [sq_nonneg ((n : ℝ) + 1)]

theorem exTwoLeaping_ok (ω : ℕ × ℕ × Fin 3 → Fin 3) (F : ℕ) (hF : 2 ≤ F) : ∃ Z, diffusionAnalyzer Real.sqrt (exOracle ℝ) () exUncR
    (fromAse exNumR (exParamsF F) exSelectR 1 none (.one (wrapped F ["Li", "Li", "O"] exCube 1 (exTwoLeaping ω) fun _ _ _ => 0))) = .ok (Z, ()) := by
  obtain ⟨⟨Z, _, h, -⟩, -⟩ := exTwoLeaping_all ω F hF
  exact ⟨Z, h⟩

/-- Least squares by the formula. -/
noncomputable def exLeastR (n t : List ℝ) (v : List (Option ℝ)) : PyM ℝ :=
  if v = (v.map fun x => x.getD 0).map some ∧ 0 < ∑ i ∈ Finset.range v.length, (t.getD i 0 ^ 2 / n.getD i 0) ^ 2 then
    .ok (max 0 ((∑ i ∈ Finset.range v.length, (v.map fun x => x.getD 0).getD i 0 * (t.getD i 0 ^ 2 / n.getD i 0)) / ∑ i ∈ Finset.range v.length, (t.getD i 0 ^ 2 / n.getD i 0) ^ 2))
  else .error .valueError

noncomputable def exLsLibR : GlsLib ℝ where
  curveFit := exLeastR
  eig := fun _ _ => .error .linAlgError
  covNearest := fun _ A => .ok A
  slogdet := fun _ _ => .error .linAlgError
  pinvh := fun _ _ => .error .linAlgError
  linregress := fun _ _ => .error .valueError
  minimize := fun _ x => .ok x
  randn := fun _ _ => 0
  emceeCheck := fun _ _ _ => .ok ()
  propose := fun _ _ => []
  threshold := fun _ _ => 0
  dist := fun _ => .ok ()

theorem exLsLibR_least : LeastSquares exLsLibR := by
  intro n t v α h
  have h : exLeastR n t v = .ok α := h
  unfold exLeastR at h
  split_ifs at h with h0
  obtain ⟨h1, h2⟩ := h0
  obtain rfl := Except.ok.inj h
  refine ⟨le_max_left _ _, _, h1, fun β hβ => ?_⟩
  have e : ∀ γ, varianceMisfit n t (v.map fun x => x.getD 0) γ = ∑ i ∈ Finset.range v.length, ((v.map fun x => x.getD 0).getD i 0 - γ * (t.getD i 0 ^ 2 / n.getD i 0)) ^ 2 := by
    intro γ
    unfold varianceMisfit
    rw [List.length_map]
    refine Finset.sum_congr rfl fun i _ => ?_
    congr 2
    ring
  rw [e, e]
  exact exLeast_min h2 hβ

theorem exLeastR_ok {n t : List ℝ} {v : List (Option ℝ)} (hv : ∀ x ∈ v, ∃ y, x = some y) (hl : 0 < v.length) (ht : 0 < t.getD 0 0) (hn : 0 < n.getD 0 0) : ∃ α, exLsLibR.curveFit n t v = .ok α := by
  refine ⟨_, if_pos ⟨?_, ?_⟩⟩
  · rw [List.map_map]
    refine (List.map_id v).symm.trans (List.map_congr_left fun x hx => ?_)
    obtain ⟨y, rfl⟩ := hv x hx
    rfl
  · refine lt_of_lt_of_le (show 0 < (t.getD 0 0 ^ 2 / n.getD 0 0) ^ 2 by positivity) ?_
    exact Finset.single_le_sum (f := fun i => (t.getD i 0 ^ 2 / n.getD i 0) ^ 2) (fun i _ => sq_nonneg _) (Finset.mem_range.2 hl)

/-- Two atoms, 1000 frames, all intervals from 2 frames on: the variance of the samples is on average between 0.49 and 3.01 of the true variance of the gradient. -/
example : ∃ (Z : (ℕ × ℕ × Fin 3 → Fin 3) → Analyzer ℝ) (α : (ℕ × ℕ × Fin 3 → Fin 3) → ℝ),
    (∀ ω, diffusionAnalyzer Real.sqrt (exOracle ℝ) () exUncR (fromAse exNumR (exParamsF 1000) exSelectR 1 none
      (.one (wrapped 1000 ["Li", "Li", "O"] exCube 1 (exTwoLeaping ω) fun _ _ _ => 0))) = .ok (Z ω, ())) ∧
    (∀ ω, exLsLibR.curveFit ((Z ω).diff.nO.drop 1) ((Z ω).diff.dt.drop 1) ((Z ω).diff.v.drop 1) = .ok (α ω)) ∧
    49 / 100 * Var[fun ω => valuesFrom (Z ω).diff 1 0 / timesFrom (Z ω).diff 1 0; exLeaps] ≤ ∫ ω, α ω / (Z ω).diff.nO.getD 1 0 ∂exLeaps ∧
    ∫ ω, α ω / (Z ω).diff.nO.getD 1 0 ∂exLeaps ≤ 301 / 100 * Var[fun ω => valuesFrom (Z ω).diff 1 0 / timesFrom (Z ω).diff 1 0; exLeaps] := by
  choose Z hZ using fun ω => exTwoLeaping_ok ω 1000 (by omega)
  have hg : DefaultGrid exNumR (exParamsF 1000) := by
    refine ⟨rfl, ?_, rfl, rfl, rfl, rfl⟩
    simp [exParamsF, PyNum.val]
  have hS : Picks exSelectR ["Li", "Li", "O"] [0, 1] [2] := .species ["Li"] rfl rfl
  have hfit : ∀ ω, ∃ α, exLsLibR.curveFit ((Z ω).diff.nO.drop 1) ((Z ω).diff.dt.drop 1) ((Z ω).diff.v.drop 1) = .ok α := by
    intro ω
    obtain ⟨⟨hI, hal⟩, l1, l2, -, -⟩ := run_lists (fw := [2]) hS (by simp) hg (F := 1000) (by norm_num) (le_refl _) (fun i _ j _ => exTwoLeaping_half ω i j) rfl rfl (unit := 1)
      (m := fun _ _ _ => 0) (Or.inl ⟨rfl, rfl⟩) (hZ ω)
    have all : ∀ i < 1000, ∃ a, _ := fun i hi => run_entry_all (fw := [2]) hS (by simp) hg (F := 1000) (le_refl _) (fun i _ j _ => exTwoLeaping_half ω i j)
      (fun x hx => ⟨Real.sqrt_nonneg x, Real.sq_sqrt hx⟩) rfl rfl (unit := 1) (m := fun _ _ _ => 0) (Or.inl ⟨rfl, rfl⟩) (hZ ω) (by omega) (τ := i + 1) (by omega) (by omega) (by
        rw [show [0, 1].length = 2 from rfl, resolved_pair le_rfl, Nat.add_sub_cancel, List.getElem?_map, List.getElem?_range hi]
        rfl)
    have e1 : ((Z ω).diff.dt.drop 1).getD 0 0 = (Z ω).diff.dt.getD 1 0 := by simp only [List.getD_eq_getElem?_getD, List.getElem?_drop]
    have e2 : ((Z ω).diff.nO.drop 1).getD 0 0 = (Z ω).diff.nO.getD 1 0 := by simp only [List.getD_eq_getElem?_getD, List.getElem?_drop]
    refine exLeastR_ok (fun x hx => ?_) ?_ ?_ ?_
    · obtain ⟨i, hi, rfl⟩ := List.mem_iff_getElem.1 (List.mem_of_mem_drop hx)
      obtain ⟨a, -, -, -, -, h4⟩ := all i (by omega)
      rw [Nat.add_sub_cancel, List.getElem?_eq_getElem hi] at h4
      exact ⟨_, Option.some.inj h4⟩
    · rw [List.length_drop]
      omega
    · rw [e1, List.getD_eq_getElem _ _ (by have := hal.1; have := hal.2.1; omega)]
      exact hI.2.1 _ (List.getElem_mem _)
    · rw [e2, List.getD_eq_getElem _ _ (by have := hal.1; have := hal.2.1; omega)]
      exact hI.2.2 _ (List.getElem_mem _)
  choose α hα using hfit
  obtain ⟨-, -, -, c1, c2⟩ := C158_error_bar exLeaps exNumR (exParamsF 1000) exSelectR ["Li", "Li", "O"] [0, 1] [2] hS (by simp) (by simp) hg 1000
      (le_refl _) exCube 1 exTwoLeaping (fun _ _ _ _ => 0) (fun ω i _ j _ => exTwoLeaping_half ω i j) _ exLeaps_walk.1 (Real.sqrt (1 / 48))
      exLeaps_walk.2 (fun i hi j l ω => exTwoLeaping_step i j l ω hi) Real.sqrt (fun x hx => ⟨Real.sqrt_nonneg x, Real.sq_sqrt hx⟩) (exOracle ℝ) exUncR rfl rfl _ 1 (fun ω => Or.inl ⟨rfl, rfl⟩)
      (fun _ => ()) (fun _ => ()) Z (fun ω => hZ ω) 1 (by norm_num) (fun _ => exLsLibR) (fun _ => exLsLibR_least) α hα
  have hv : 0 ≤ Var[fun ω => valuesFrom (Z ω).diff 1 0 / timesFrom (Z ω).diff 1 0; exLeaps] := variance_nonneg _ _
  refine ⟨Z, α, hZ, hα, le_trans ?_ c1, c2.trans ?_⟩
  · refine mul_le_mul_of_nonneg_right ?_ hv
    norm_num
  · refine mul_le_mul_of_nonneg_right ?_ hv
    norm_num

/-- `C158_fit`: the times 1, 2 with 2, 1 observations, the first value 3 and the coefficient 2, without an intercept. -/
example : ∃ b' : Boot ℚ, bootstrapGLS exStayLib { exArgs 1 false with model := true } exFitBoot = (b', .ok ()) ∧ ∃ ll, Samples exStayLib { exArgs 1 false with model := true } b' ll ∧ RayVariance ll 3 1 := by
  have o1 : (bootstrapGLS exStayLib { exArgs 1 false with model := true } exFitBoot).2.toOption = some () := by decide +kernel
  have o3 : (bootstrapGLS exStayLib { exArgs 1 false with model := true } exFitBoot).1.popt = some 2 := by decide +kernel
  have o4 : (bootstrapGLS exStayLib { exArgs 1 false with model := true } exFitBoot).1.covariance =
    (bootstrapGLS exStayLib { exArgs 1 false with model := true } exFitBoot).1.npdCovariance := by decide +kernel
  refine ⟨_, ok_of_outcome o1, ?_⟩
  obtain ⟨r, α, a1, -, a2, a3⟩ := C158_fit (ok_of_outcome o1) rfl o4 (fun m A P _ h => exModelLib_inv m A P h) (fun f x y h => by rw [← Except.ok.inj h]) exFit_aligned
  rw [o3] at a2
  obtain rfl := Option.some.inj a2
  have hr : (diffRegime exFitBoot.dt (1 : ℚ)).toOption = some 0 := by decide +kernel
  rw [show ({ exArgs 1 false with model := true } : GlsArgs ℚ).startDt = 1 from rfl] at a1
  rw [a1] at hr
  obtain rfl := Option.some.inj hr
  obtain ⟨ll, b1, b2⟩ := a3 (by norm_num)
  have e1 : valuesFrom exFitBoot 0 0 / timesFrom exFitBoot 0 0 = 3 := by decide +kernel
  have e2 : (2 : ℚ) / exFitBoot.nO.getD 0 0 = 1 := by decide +kernel
  rw [e1, e2] at b2
  exact ⟨ll, b1, b2⟩

end Kinisi
