import Verif.Props.OverlapTotal

/-!
# Are the error bars of the jump diffusion coefficient and of the conductivity of a random walk right? C160
-/

set_option linter.unusedSectionVars false
set_option linter.unusedVariables false

namespace Kinisi
open MeasureTheory ProbabilityTheory Spec

variable {Ω : Type} [MeasurableSpace Ω] {μ : Measure Ω} [IsProbabilityMeasure μ] {G : Type}

/-- Bounds for the mean of the sample variance of the squared total displacement, for every interval up to half of the frames. -/
theorem total_varOn {d B T W F V E : ℝ} (hd0 : 0 ≤ d) (hd : d ≤ 3) (hB : 0 ≤ B) (hT : 1 ≤ T) (hW : T + 1 ≤ W) (hF : F = W + T - 1)
    (hV : V = 2 * d * B * ((2 * W * T * (2 * T ^ 2 + 1) - T ^ 2 * (T ^ 2 - 1)) / 6 - (2 * T - 1)) / W ^ 2)
    (hE : (W - 1) * E = 2 * d * B * (W * T ^ 2 - (2 * T - 1)) + d ^ 2 * B * (1 - 1 / W) - W * V) :
    1 / 2 * (2 * d * B) * T ^ 2 ≤ E ∧ E ≤ (3 / 64 + 1 / F + 15 * (F + 2) / 64 / T) * (2 * d * B) * T ^ 2 := by
  have hW0 : 0 < W := by linarith
  have hW1 : 0 < W - 1 := by linarith
  have hF0 : 0 < F := by linarith
  have hT0 : 0 < T := by linarith
  have hdB : 0 ≤ d * B := mul_nonneg hd0 hB
  have hd2 : d ^ 2 * B ≤ 3 * (d * B) := by nlinarith
  have key : W * (W - 1) * E = 2 * (d * B) * (W ^ 2 * T ^ 2 - W * (2 * T - 1) - ((2 * W * T * (2 * T ^ 2 + 1) - T ^ 2 * (T ^ 2 - 1)) / 6 - (2 * T - 1))) + d ^ 2 * B * (W - 1) := by
    rw [mul_assoc, hE, hV]
    field_simp
    ring
  obtain ⟨t, ht, rfl⟩ : ∃ t : ℝ, 0 ≤ t ∧ T = 1 + t := ⟨T - 1, by linarith, by ring⟩
  obtain ⟨w, hw, rfl⟩ : ∃ w : ℝ, 0 ≤ w ∧ W = 2 + t + w := ⟨W - (2 + t), by linarith, by ring⟩
  constructor
  · have p : 0 ≤ (2 + t + w) ^ 2 * (1 + t) ^ 2 - (2 + t + w) * (2 * (1 + t) - 1) - ((2 * (2 + t + w) * (1 + t) * (2 * (1 + t) ^ 2 + 1) - (1 + t) ^ 2 * ((1 + t) ^ 2 - 1)) / 6 - (2 * (1 + t) - 1)) -
        (2 + t + w) * (2 + t + w - 1) * (1 + t) ^ 2 / 2 := by
      ring_nf
      positivity
    have q : 0 ≤ d ^ 2 * B * (2 + t + w - 1) := mul_nonneg (by positivity) hW1.le
    have := mul_nonneg (show (0 : ℝ) ≤ 2 * (d * B) by linarith) p
    refine le_of_mul_le_mul_left ?_ (mul_pos hW0 hW1)
    rw [key]
    linarith
  · have p : 0 ≤ 64 * F * ((2 + t + w) * (2 + t + w - 1) * ((3 / 64 + 1 / F + 15 * (F + 2) / 64 / (1 + t)) * (1 + t) ^ 2) -
        ((2 + t + w) ^ 2 * (1 + t) ^ 2 - (2 + t + w) * (2 * (1 + t) - 1) - ((2 * (2 + t + w) * (1 + t) * (2 * (1 + t) ^ 2 + 1) - (1 + t) ^ 2 * ((1 + t) ^ 2 - 1)) / 6 - (2 * (1 + t) - 1)) +
          3 / 2 * (2 + t + w - 1))) := by
      have e : 64 * F * ((2 + t + w) * (2 + t + w - 1) * ((3 / 64 + 1 / F + 15 * (F + 2) / 64 / (1 + t)) * (1 + t) ^ 2)) =
          (2 + t + w) * (2 + t + w - 1) * (3 * F * (1 + t) ^ 2 + 64 * (1 + t) ^ 2 + 15 * F * (F + 2) * (1 + t)) := by
        field_simp
      have sq : 0 ≤ (2 + t + w + (1 + t) - 1) * (1 + t) * (3 * (2 + t + w) - 4 * (1 + t)) ^ 2 * (5 * (2 + t + w) - 2 * (1 + t)) :=
        mul_nonneg (mul_nonneg (mul_nonneg (by linarith) (by linarith)) (sq_nonneg _)) (by linarith)
      rw [mul_sub, e, hF]
      refine le_of_mul_le_mul_left (a := (3 : ℝ)) ?_ (by norm_num)
      rw [mul_zero]
      refine sq.trans ?_
      rw [← sub_nonneg]
      ring_nf
      positivity
    have p' := nonneg_of_mul_nonneg_right p (show (0 : ℝ) < 64 * F by linarith)
    have q : d ^ 2 * B * (2 + t + w - 1) ≤ 3 * (d * B) * (2 + t + w - 1) := mul_le_mul_of_nonneg_right hd2 hW1.le
    have := mul_nonneg (show (0 : ℝ) ≤ 2 * (d * B) by linarith) p'
    refine le_of_mul_le_mul_left ?_ (mul_pos hW0 hW1)
    rw [key]
    linarith

/-- A mean of values with an upper bound that falls with the interval. -/
theorem weighted_upper {r M : ℕ} (hr : r < M) {x : ℕ → ℝ} {p q l : ℝ} (hq : 0 ≤ q) (hlow : ∀ i < M - r, l ≤ x i) (hup : ∀ i < M - r, x i ≤ p + q / ((r + i : ℕ) + 1 : ℝ)) :
    l ≤ weightedMean (fun i => ((r + i : ℕ) + 1 : ℝ) ^ 6) x (M - r) ∧ weightedMean (fun i => ((r + i : ℕ) + 1 : ℝ) ^ 6) x (M - r) ≤ p + q * (7 / (6 * M)) := by
  have hS : 0 < ∑ i ∈ Finset.range (M - r), ((r + i : ℕ) + 1 : ℝ) ^ 6 := Finset.sum_pos (fun i _ => by positivity) ⟨0, Finset.mem_range.2 (by omega)⟩
  have hM0 : (0 : ℝ) < M := by exact_mod_cast (by omega : 0 < M)
  have h5 := fifth_le_sixth hr.le
  unfold weightedMean
  rw [le_div_iff₀ hS, div_le_iff₀ hS]
  constructor
  · rw [Finset.mul_sum]
    refine Finset.sum_le_sum fun i hi => ?_
    rw [mul_comm]
    exact mul_le_mul_of_nonneg_left (hlow i (Finset.mem_range.1 hi)) (by positivity)
  · have a : ∑ i ∈ Finset.range (M - r), ((r + i : ℕ) + 1 : ℝ) ^ 6 * x i ≤ ∑ i ∈ Finset.range (M - r), (p * ((r + i : ℕ) + 1 : ℝ) ^ 6 + q * ((r + i : ℕ) + 1 : ℝ) ^ 5) := by
      refine Finset.sum_le_sum fun i hi => ?_
      have := mul_le_mul_of_nonneg_left (hup i (Finset.mem_range.1 hi)) (show (0 : ℝ) ≤ ((r + i : ℕ) + 1 : ℝ) ^ 6 by positivity)
      refine this.trans (le_of_eq ?_)
      have : ((r + i : ℕ) + 1 : ℝ) ≠ 0 := by positivity
      field_simp
    refine a.trans ?_
    rw [Finset.sum_add_distrib, ← Finset.mul_sum, ← Finset.mul_sum]
    set S5 := ∑ i ∈ Finset.range (M - r), ((r + i : ℕ) + 1 : ℝ) ^ 5
    set S6 := ∑ i ∈ Finset.range (M - r), ((r + i : ℕ) + 1 : ℝ) ^ 6
    have : S5 ≤ 7 / (6 * M) * S6 := by
      rw [div_mul_eq_mul_div, le_div_iff₀ (by positivity)]
      linarith
    have := mul_le_mul_of_nonneg_left this hq
    linarith

/-- The mean of the reported total displacement. -/
theorem total_reported_mean {Ξ : ℕ × Fin 3 → Ω → ℝ} (h : RandomWalk μ Ξ) {σ : ℝ} (hs : NormalMoments μ Ξ σ) {L : M3 ℝ} {u : Ω → ℕ → ℕ → V3 ℝ} {fw atoms : List ℕ} {q : ℕ → ℝ}
    (hΞ : ∀ j l ω, totalMove L (u ω) fw atoms q j (j + 1) l = Ξ (j, l) ω) (A : Finset (Fin 3)) {F τ : ℕ} (h1 : 1 ≤ τ) (h2 : τ ≤ F) :
    ∫ ω, reportedTotal A L (u ω) fw atoms q F τ ∂μ = A.card * σ ^ 2 * (τ - 1 / ((F - τ + 1 : ℕ) : ℝ)) := by
  have hw := lone_walk h F
  have hm : StepMoments μ (fun (q : ℕ × ℕ × Fin 3) => Ξ (stepNo F q.1 q.2.1, q.2.2)) (σ ^ 2) (3 * σ ^ 4) := ⟨fun i => hs.second _, fun i => (hs.fourth _).le⟩
  have hξ : ∀ i ∈ [0], ∀ j l ω, walkStep unitCell (lonePath F Ξ) [] i j l ω = Ξ (stepNo F i j, l) ω := fun i _ j l ω => lonePath_step F Ξ i j l ω
  have := reportedMsd_mean (uncorrelated_of_walk hw hm hξ (F - 1)) (by simp) A h1 h2
  simp only [lonePath_reported hΞ A h2] at this
  exact this

set_option maxHeartbeats 800000 in
/-- The fit of total displacements that make independent normal steps, from what the lists contain. -/
theorem total_error_bar {Ξ : ℕ × Fin 3 → Ω → ℝ} (h : RandomWalk μ Ξ) {σ : ℝ} (hs : NormalMoments μ Ξ σ) {L : M3 ℝ} {u : Ω → ℕ → ℕ → V3 ℝ} {fw atoms : List ℕ} {q : ℕ → ℝ}
    (hΞ : ∀ j l ω, totalMove L (u ω) fw atoms q j (j + 1) l = Ξ (j, l) ω) (A : Finset (Fin 3)) {F r : ℕ} (h3 : 3 * (r + 1) ≤ F) {N c : ℝ} (hN0 : 0 < N) (hc : 0 < c)
    (a : Ω → ℕ → Arr3 ℝ) (ha : ∀ ω, ∀ i < F / 2, TrueWindows L (u ω) fw atoms F (i + 1) (a ω i)) (b : Ω → Boot ℝ)
    (hb : ∀ ω, (InverseCounts (b ω) ∧ Aligned (b ω)) ∧ (b ω).v.length = (b ω).n.length ∧ (b ω).n.length = F / 2)
    (e2 : ∀ ω, ∀ i < F / 2, (b ω).dt[i]? = some (((i + 1 : ℕ) : ℝ) * c))
    (e3 : ∀ ω, ∀ i < F / 2, (b ω).nO[i]? = some (N * ((F : ℝ) / ((i + 1 : ℕ) : ℝ))))
    (e1 : ∀ ω, ∀ i < F / 2, (b ω).n[i]? = some (reportedTotal A L (u ω) fw atoms q F (i + 1)))
    (e4 : ∀ ω, ∀ i < F / 2, (b ω).v[i]? = some (some (varOn (Finset.range (a ω i).n1) (sqSum A q (a ω i)) / ((F : ℝ) / ((i + 1 : ℕ) : ℝ)))))
    (lib : Ω → GlsLib ℝ) (hlib : ∀ ω, LeastSquares (lib ω)) (α : Ω → ℝ)
    (hα : ∀ ω, (lib ω).curveFit ((b ω).nO.drop r) ((b ω).dt.drop r) ((b ω).v.drop r) = .ok (α ω)) :
    let γ := fun ω => valuesFrom (b ω) r 0 / timesFrom (b ω) r 0
    let s := fun ω => α ω / (b ω).nO.getD r 0
    (Integrable α μ ∧ N * (1 / 2 * walkCoefficient A σ c) ≤ ∫ ω, α ω ∂μ ∧ ∫ ω, α ω ∂μ ≤ N * ((19 / 32 + 4 / F) * walkCoefficient A σ c)) ∧
    (MemLp γ 2 μ ∧ ∫ ω, γ ω ∂μ = A.card * σ ^ 2 / c * (1 - 1 / ((r + 1) * (F - r)))) ∧
    Integrable s μ ∧ 1 / 2 * Var[γ; μ] ≤ ∫ ω, s ω ∂μ ∧ ∫ ω, s ω ∂μ ≤ (57 / 64 + 6 / F) * Var[γ; μ] ∧ (55 ≤ F → 0 < σ → A.Nonempty → ∫ ω, s ω ∂μ < Var[γ; μ]) := by
  intro γ s
  have hF3 : 3 ≤ F := by omega
  have hrM : r < F / 2 := by omega
  have hF0 : (0 : ℝ) < F := by exact_mod_cast (by omega : 0 < F)
  have hd3 : (A.card : ℝ) ≤ 3 := by exact_mod_cast (A.card_le_univ.trans (by simp))
  let y : Ω → ℕ → ℝ := fun ω i => varOn (Finset.range (a ω i).n1) (sqSum A q (a ω i))
  -- the quantities of interval `r + i`
  have hT : ∀ ω, ∀ i < F / 2 - r, timesFrom (b ω) r i = ((r + i : ℕ) + 1 : ℝ) * c := by
    intro ω i hi
    unfold timesFrom
    rw [List.getD_eq_getElem?_getD, e2 ω (r + i) (by omega), Option.getD_some]
    push_cast
    ring
  have hO : ∀ ω, ∀ i < F / 2 - r, (b ω).nO.getD (r + i) 0 = N * (F / ((r + i : ℕ) + 1 : ℝ)) := by
    intro ω i hi
    rw [List.getD_eq_getElem?_getD, e3 ω (r + i) (by omega), Option.getD_some]
    push_cast
    ring
  have hown : ∀ ω, ∀ i < F / 2 - r, ownCoefficient (b ω) r i = N * (y ω (r + i) / (((r + i : ℕ) + 1 : ℝ) * c) ^ 2) := by
    intro ω i hi
    unfold ownCoefficient
    rw [hT ω i hi, hO ω i hi, List.getD_eq_getElem?_getD, e4 ω (r + i) (by omega), Option.getD_some, Option.getD_some]
    have : (((r + i + 1 : ℕ)) : ℝ) = ((r + i : ℕ) + 1 : ℝ) := by push_cast; ring
    rw [this]
    have h1 : ((r + i : ℕ) + 1 : ℝ) ≠ 0 := by positivity
    have h2 : (F : ℝ) / ((r + i : ℕ) + 1 : ℝ) ≠ 0 := by positivity
    show y ω (r + i) / _ * _ / _ = _
    generalize y ω (r + i) = z at *
    generalize (F : ℝ) / ((r + i : ℕ) + 1 : ℝ) = f at *
    field_simp
  have hstat : ∀ i < F / 2, _ := fun i hi => total_stats h hs hΞ A (F := F) (τ := i + 1) (by omega) (by omega) (fun ω => a ω i) (fun ω => ha ω i hi)
  have hwin : ∀ τ, 1 ≤ τ → 2 * τ ≤ F → windowSum τ (F - τ + 1) =
      (2 * ((F - τ + 1 : ℕ) : ℝ) * τ * (2 * (τ : ℝ) ^ 2 + 1) - (τ : ℝ) ^ 2 * ((τ : ℝ) ^ 2 - 1)) / 6 - (2 * τ - 1) := by
    intro τ _ h2
    have := sharedSum_long (show τ ≤ F - τ + 1 by omega)
    unfold windowSum
    linarith
  have hmean : ∀ i < F / 2, 1 / 2 * (2 * A.card * σ ^ 4) * ((i : ℝ) + 1) ^ 2 ≤ ∫ ω, y ω i ∂μ ∧
      ∫ ω, y ω i ∂μ ≤ (3 / 64 + 1 / F + 15 * (F + 2) / 64 / ((i : ℝ) + 1)) * (2 * A.card * σ ^ 4) * ((i : ℝ) + 1) ^ 2 := by
    intro i hi
    obtain ⟨-, m2, -, i2⟩ := hstat i hi
    rw [hwin (i + 1) (by omega) (by omega)] at m2
    have eW : ((F - (i + 1) + 1 : ℕ) : ℝ) = F - i := by
      push_cast [Nat.cast_sub (show i + 1 ≤ F by omega)]
      ring
    have h2i : 2 * ((i : ℝ) + 1) ≤ F := by exact_mod_cast (by omega : 2 * (i + 1) ≤ F)
    rw [eW] at m2 i2
    rw [Nat.cast_add, Nat.cast_one] at m2 i2
    exact total_varOn (d := A.card) (B := σ ^ 4) (T := (i : ℝ) + 1) (W := (F : ℝ) - i) (Nat.cast_nonneg _) hd3 (by positivity) (by linarith [(Nat.cast_nonneg i : (0 : ℝ) ≤ i)]) (by linarith) (by ring) m2 i2
  -- the fitted coefficient
  have hαe : ∀ ω, α ω = N * weightedMean (fun i => ((r + i : ℕ) + 1 : ℝ) ^ 6) (fun i => y ω (r + i) / (((r + i : ℕ) + 1 : ℝ) * c) ^ 2) (F / 2 - r) := by
    intro ω
    have := fitted_coefficient (hlib ω) (hb ω).1 (hb ω).2.1 (by rw [(hb ω).2.2]; omega) (hα ω)
    rw [(hb ω).2.2] at this
    have eq : weightedMean (fun i => timesFrom (b ω) r i ^ 6) (ownCoefficient (b ω) r) (F / 2 - r) =
        N * weightedMean (fun i => ((r + i : ℕ) + 1 : ℝ) ^ 6) (fun i => y ω (r + i) / (((r + i : ℕ) + 1 : ℝ) * c) ^ 2) (F / 2 - r) := by
      unfold weightedMean
      have x1 : ∑ i ∈ Finset.range (F / 2 - r), timesFrom (b ω) r i ^ 6 = (∑ i ∈ Finset.range (F / 2 - r), ((r + i : ℕ) + 1 : ℝ) ^ 6) * c ^ 6 := by
        rw [Finset.sum_mul]
        exact Finset.sum_congr rfl fun i hi => by rw [hT ω i (Finset.mem_range.1 hi)]; ring
      have x2 : ∑ i ∈ Finset.range (F / 2 - r), timesFrom (b ω) r i ^ 6 * ownCoefficient (b ω) r i =
          N * (∑ i ∈ Finset.range (F / 2 - r), ((r + i : ℕ) + 1 : ℝ) ^ 6 * (y ω (r + i) / (((r + i : ℕ) + 1 : ℝ) * c) ^ 2)) * c ^ 6 := by
        rw [Finset.mul_sum, Finset.sum_mul]
        exact Finset.sum_congr rfl fun i hi => by rw [hT ω i (Finset.mem_range.1 hi), hown ω i (Finset.mem_range.1 hi)]; ring
      rw [x1, x2, mul_div_mul_right _ _ (pow_pos hc 6).ne', mul_div_assoc]
    rw [this, eq]
    refine max_eq_right (mul_nonneg hN0.le ?_)
    unfold weightedMean
    refine div_nonneg (Finset.sum_nonneg fun i hi => mul_nonneg (by positivity) (div_nonneg ?_ (by positivity))) (Finset.sum_nonneg fun i _ => by positivity)
    refine varOn_nonneg ?_
    have hi' := Finset.mem_range.1 hi
    have := ha ω (r + i) (by omega)
    rw [this.2.1, Finset.card_range]
    omega
  have hint : ∀ i < F / 2 - r, Integrable (fun ω => y ω (r + i)) μ := fun i hi => (hstat (r + i) (by omega)).2.2.1
  have hαi : Integrable α μ := by
    rw [show α = _ from funext hαe]
    unfold weightedMean
    refine Integrable.const_mul (Integrable.div_const (integrable_finsetSum _ fun i hi => ?_) _) _
    exact ((hint i (Finset.mem_range.1 hi)).div_const _).const_mul _
  have hαm : ∫ ω, α ω ∂μ = N * weightedMean (fun i => ((r + i : ℕ) + 1 : ℝ) ^ 6) (fun i => (∫ ω, y ω (r + i) ∂μ) / (((r + i : ℕ) + 1 : ℝ) * c) ^ 2) (F / 2 - r) := by
    simp only [hαe]
    unfold weightedMean
    rw [integral_const_mul, integral_div, integral_finsetSum _ fun i hi => ((hint i (Finset.mem_range.1 hi)).div_const _).const_mul _]
    congr 2
    refine Finset.sum_congr rfl fun i _ => ?_
    rw [integral_const_mul, integral_div]
  have hw0 : 0 ≤ walkCoefficient A σ c := by
    unfold walkCoefficient
    positivity
  obtain ⟨b1, b2⟩ := weighted_upper (r := r) (M := F / 2) hrM (l := 1 / 2 * walkCoefficient A σ c) (p := (3 / 64 + 1 / F) * walkCoefficient A σ c) (q := 15 * (F + 2) / 64 * walkCoefficient A σ c)
    (x := fun i => (∫ ω, y ω (r + i) ∂μ) / (((r + i : ℕ) + 1 : ℝ) * c) ^ 2) (mul_nonneg (by positivity) hw0) (by
      intro i hi
      have ht : (0 : ℝ) < ((r + i : ℕ) + 1 : ℝ) := by positivity
      rw [le_div_iff₀ (by positivity)]
      refine le_trans (le_of_eq ?_) (hmean (r + i) (by omega)).1
      unfold walkCoefficient
      field_simp) (by
      intro i hi
      have ht : (0 : ℝ) < ((r + i : ℕ) + 1 : ℝ) := by positivity
      rw [div_le_iff₀ (by positivity)]
      refine (hmean (r + i) (by omega)).2.trans (le_of_eq ?_)
      unfold walkCoefficient
      field_simp)
  have hfac : 3 / 64 + 1 / (F : ℝ) + 15 * (F + 2) / 64 * (7 / (6 * ((F / 2 : ℕ) : ℝ))) ≤ 19 / 32 + 4 / F := by
    have hM : (F : ℝ) - 1 ≤ 2 * ((F / 2 : ℕ) : ℝ) := by
      have : (F : ℝ) ≤ ((2 * (F / 2) + 1 : ℕ) : ℝ) := by exact_mod_cast (by omega : F ≤ 2 * (F / 2) + 1)
      push_cast at this
      push_cast
      linarith
    have hF3' : (3 : ℝ) ≤ F := by exact_mod_cast hF3
    have hM0 : (0 : ℝ) < ((F / 2 : ℕ) : ℝ) := by exact_mod_cast (by omega : 0 < F / 2)
    generalize ((F / 2 : ℕ) : ℝ) = M at *
    have e : 15 * ((F : ℝ) + 2) / 64 * (7 / (6 * M)) = 35 * (F + 2) / (64 * (2 * M)) := by
      field_simp
      ring
    have e' : 35 * ((F : ℝ) + 2) / (64 * (2 * M)) ≤ 35 * (F + 2) / (64 * (F - 1)) := by
      apply div_le_div_of_nonneg_left (by positivity) (by nlinarith) (by linarith)
    have e'' : 35 * ((F : ℝ) + 2) / (64 * (F - 1)) ≤ 35 / 64 + 3 / F := by
      rw [div_add_div _ _ (by norm_num) hF0.ne', div_le_div_iff₀ (by nlinarith) (by positivity)]
      nlinarith
    have e3 : 4 / (F : ℝ) = 1 / F + 3 / F := by ring
    rw [e, e3]
    linarith
  have b1' : N * (1 / 2 * walkCoefficient A σ c) ≤ ∫ ω, α ω ∂μ := by
    rw [hαm]
    exact mul_le_mul_of_nonneg_left b1 hN0.le
  have b2' : ∫ ω, α ω ∂μ ≤ N * ((19 / 32 + 4 / F) * walkCoefficient A σ c) := by
    rw [hαm]
    refine mul_le_mul_of_nonneg_left (b2.trans ?_) hN0.le
    have := mul_le_mul_of_nonneg_right hfac hw0
    linarith
  -- the gradient
  obtain ⟨m1, m2, -, -⟩ := hstat r hrM
  obtain ⟨v1, v2⟩ := var_bounds A σ Nat.one_pos (F := F) (τ := r + 1) (by omega) h3
  rw [Nat.cast_one, one_mul, ← m2] at v1 v2
  have hγ : γ = fun ω => (((r : ℝ) + 1) * c)⁻¹ * reportedTotal A L (u ω) fw atoms q F (r + 1) := by
    funext ω
    show valuesFrom (b ω) r 0 / timesFrom (b ω) r 0 = _
    rw [hT ω 0 (by omega)]
    unfold valuesFrom
    rw [List.getD_eq_getElem?_getD, Nat.add_zero, e1 ω r (by omega), Option.getD_some, div_eq_inv_mul]
  have hs' : s = fun ω => α ω / (N * (F / ((r : ℝ) + 1))) := by
    funext ω
    show α ω / (b ω).nO.getD r 0 = _
    have := hO ω 0 (by omega)
    rw [Nat.add_zero] at this
    rw [this]
  have hVar : Var[γ; μ] = (((r : ℝ) + 1) * c)⁻¹ ^ 2 * Var[fun ω => reportedTotal A L (u ω) fw atoms q F (r + 1); μ] := by
    rw [hγ, variance_const_mul]
  have hside : (((r : ℝ) + 1) * c)⁻¹ ^ 2 * sideBySideVar A σ 1 F (r + 1) = walkCoefficient A σ c / (F / ((r : ℝ) + 1)) := by
    unfold sideBySideVar walkCoefficient
    push_cast
    field_simp
  have hcoef : 0 ≤ (((r : ℝ) + 1) * c)⁻¹ ^ 2 := by positivity
  have w1 : 2 / 3 * (walkCoefficient A σ c / (F / ((r : ℝ) + 1))) ≤ Var[γ; μ] := by
    rw [hVar, ← hside]
    have := mul_le_mul_of_nonneg_left v1 hcoef
    linarith
  have w2 : Var[γ; μ] ≤ walkCoefficient A σ c / (F / ((r : ℝ) + 1)) := by
    rw [hVar, ← hside]
    exact mul_le_mul_of_nonneg_left v2 hcoef
  have hno : 0 < (F : ℝ) / ((r : ℝ) + 1) := by positivity
  have key : ∀ k : ℝ, N * (k * walkCoefficient A σ c) / (N * (F / ((r : ℝ) + 1))) = k * (walkCoefficient A σ c / (F / ((r : ℝ) + 1))) := by
    intro k
    rw [mul_div_mul_left _ _ hN0.ne', mul_div_assoc]
  have hNo : 0 < N * ((F : ℝ) / ((r : ℝ) + 1)) := mul_pos hN0 hno
  have s1 : 1 / 2 * (walkCoefficient A σ c / (F / ((r : ℝ) + 1))) ≤ ∫ ω, s ω ∂μ := by
    rw [hs', integral_div, ← key]
    exact div_le_div_of_nonneg_right b1' hNo.le
  have s2 : ∫ ω, s ω ∂μ ≤ (19 / 32 + 4 / F) * (walkCoefficient A σ c / (F / ((r : ℝ) + 1))) := by
    rw [hs', integral_div, ← key]
    exact div_le_div_of_nonneg_right b2' hNo.le
  have s3 : ∫ ω, s ω ∂μ ≤ (57 / 64 + 6 / F) * Var[γ; μ] := by
    refine s2.trans ?_
    have : walkCoefficient A σ c / (F / ((r : ℝ) + 1)) ≤ 3 / 2 * Var[γ; μ] := by linarith
    calc _ ≤ (19 / 32 + 4 / (F : ℝ)) * (3 / 2 * Var[γ; μ]) := mul_le_mul_of_nonneg_left this (by positivity)
      _ = _ := by ring
  refine ⟨⟨hαi, b1', b2'⟩, ⟨by rw [hγ]; exact m1.const_mul _, ?_⟩, by rw [hs']; exact hαi.div_const _, by linarith, s3, fun h55 hσ hA => lt_of_le_of_lt s3 ?_⟩
  · rw [hγ, integral_const_mul, total_reported_mean h hs hΞ A (by omega) (show r + 1 ≤ F by omega)]
    have eW : ((F - (r + 1) + 1 : ℕ) : ℝ) = F - r := by
      push_cast [Nat.cast_sub (show r + 1 ≤ F by omega)]
      ring
    have hFr : (F : ℝ) - r ≠ 0 := by
      rw [← eW]
      exact (Nat.cast_pos.2 (Nat.succ_pos (F - (r + 1)))).ne'
    rw [eW, Nat.cast_add, Nat.cast_one]
    exact mean_scale hc.ne' (by positivity) hFr
  · have hcard : (0 : ℝ) < A.card := by exact_mod_cast Finset.card_pos.2 hA
    have hpos : 0 < Var[γ; μ] := by
      refine lt_of_lt_of_le ?_ w1
      unfold walkCoefficient
      positivity
    have : (6 : ℝ) / F < 7 / 64 := by
      rw [div_lt_div_iff₀ hF0 (by norm_num)]
      have : (55 : ℝ) ≤ F := by exact_mod_cast h55
      linarith
    nlinarith

/-! ## The lists of a run -/

theorem run_lists_mstd {E : Num ℝ} {P : Params ℝ} {S : Select ℝ} {sy : List String} {atoms fw : List ℕ} (hS : Picks S sy atoms fw) (hN : 2 ≤ atoms.length) (hP : DefaultGrid E P) {F : ℕ} (hF : 2 ≤ F)
    (hn : (F : ℤ) ≤ P.nSteps) {L : M3 ℝ} {V : ℝ} {u : ℕ → ℕ → V3 ℝ} {m : ℕ → ℕ → Fin 3 → ℤ} (hstep : ∀ i < sy.length, ∀ j, j + 1 < F → HalfCell fun k => u i (j + 1) k - u i j k)
    {sq : ℝ → ℝ} {o : Oracle ℝ G} {U : UncParams ℝ} (hblock : U.opt.block = false) (hsub : U.sub = 1) {base : PyM (Base ℝ)} {unit : ℝ} (hbase : ReadFrom E P S F sy L V u m base unit)
    {g g' : G} {Z : Analyzer ℝ} (hZ : jumpAnalyzer sq o g U base = .ok (Z, g')) :
    ((InverseCounts Z.diff ∧ Aligned Z.diff) ∧ Z.diff.v.length = Z.diff.n.length ∧ Z.diff.n.length = F / 2) ∧ 0 < P.stepSkip.val * P.timeStep.val / unit ∧
      ∀ i < F / 2, Z.diff.nO[i]? = some (atoms.length * ((F : ℝ) / ((i + 1 : ℕ) : ℝ))) := by
  have hu : 0 < unit := by rcases hbase with ⟨-, rfl⟩ | ⟨-, rfl⟩ | ⟨-, rfl⟩ <;> norm_num
  have hc : 0 < P.stepSkip.val * P.timeStep.val / unit := div_pos hP.2.1 hu
  obtain ⟨B, hB, hZB, hm⟩ := jump_inv hZ
  obtain ⟨taus, -, ht⟩ := read_base hS hP hF hstep hbase hB
  obtain ⟨e1, e2⟩ := mstd_of_parsed ht hblock hsub hm
  have := ht.full hn
  subst this
  have hd : Z.deltaT = ((List.range F).map fun i => i + 1).map fun τ : ℕ => (τ : ℝ) * (P.stepSkip.val * P.timeStep.val / unit) := by
    show Z.toBase.deltaT = _
    rw [hZB, ht.deltaT]
    refine List.map_congr_left fun τ _ => ?_
    ring
  obtain ⟨r1, -⟩ := runs_aligned (charge := .scalar 1) hP.1 hP.2.2.2.2.2 hP.2.1 hbase hsub (.inr (.inl hZ)) (by
      intro t ht'
      rw [hd, List.map_map] at ht'
      obtain ⟨i, -, rfl⟩ := List.mem_map.1 ht'
      simp only [Function.comp_apply]
      positivity) (by
      rw [hd]
      exact ht.sorted.map _ fun σ τ h => mul_lt_mul_of_pos_right (by exact_mod_cast h) hc)
  have hl : Z.diff.n.length = F / 2 := by
    rw [e1, resolved_pair hN, List.length_map, List.length_take, List.length_map, List.length_range]
    omega
  obtain ⟨b0, q, -, -, i2, -, b1, -, i3⟩ := mstdBootstrap_inv hm
  refine ⟨⟨r1, by rw [i2.lv, i2.ln], hl⟩, hc, fun i hi => ?_⟩
  have hq : q = F / 2 := by rw [← hl, i2.ln]
  obtain ⟨-, -, a, -, -, hno⟩ := base_entry hP hbase hB ht (by omega) (τ := i + 1) (by omega) (by omega) (half_entry (show 1 ≤ atoms.length by omega) (show 1 ≤ i + 1 by omega) (Or.inr ⟨hN, by omega⟩)).1
  rw [Nat.add_sub_cancel] at hno
  rw [← hno, i3]
  show (B.nO.take q)[i]? = _
  rw [List.getElem?_take, if_pos (by omega)]

theorem run_lists_mscd {E : Num ℝ} {P : Params ℝ} {S : Select ℝ} {sy : List String} {atoms fw : List ℕ} (hS : Picks S sy atoms fw) (hN : 2 ≤ atoms.length) (hP : DefaultGrid E P) {F : ℕ} (hF : 2 ≤ F)
    (hn : (F : ℤ) ≤ P.nSteps) {L : M3 ℝ} {V : ℝ} {u : ℕ → ℕ → V3 ℝ} {m : ℕ → ℕ → Fin 3 → ℤ} (hstep : ∀ i < sy.length, ∀ j, j + 1 < F → HalfCell fun k => u i (j + 1) k - u i j k)
    {charge : Charge ℝ} (hq : ∀ l, charge = .array l → l.length = atoms.length)
    {sq : ℝ → ℝ} {o : Oracle ℝ G} {U : UncParams ℝ} (hblock : U.opt.block = false) (hsub : U.sub = 1) {base : PyM (Base ℝ)} {unit : ℝ} (hbase : ReadFrom E P S F sy L V u m base unit)
    {g g' : G} {Z : Analyzer ℝ} (hZ : conductivityAnalyzer sq o g U charge base = .ok (Z, g')) :
    ((InverseCounts Z.diff ∧ Aligned Z.diff) ∧ Z.diff.v.length = Z.diff.n.length ∧ Z.diff.n.length = F / 2) ∧ 0 < P.stepSkip.val * P.timeStep.val / unit ∧
      ∀ i < F / 2, Z.diff.nO[i]? = some (atoms.length * ((F : ℝ) / ((i + 1 : ℕ) : ℝ))) := by
  have hu : 0 < unit := by rcases hbase with ⟨-, rfl⟩ | ⟨-, rfl⟩ | ⟨-, rfl⟩ <;> norm_num
  have hc : 0 < P.stepSkip.val * P.timeStep.val / unit := div_pos hP.2.1 hu
  obtain ⟨B, hB, hZB, hm⟩ := conductivity_inv hZ
  obtain ⟨taus, -, ht⟩ := read_base hS hP hF hstep hbase hB
  obtain ⟨e1, e2⟩ := mscd_of_parsed ht hq hblock hsub hm
  have := ht.full hn
  subst this
  have hd : Z.deltaT = ((List.range F).map fun i => i + 1).map fun τ : ℕ => (τ : ℝ) * (P.stepSkip.val * P.timeStep.val / unit) := by
    show Z.toBase.deltaT = _
    rw [hZB, ht.deltaT]
    refine List.map_congr_left fun τ _ => ?_
    ring
  obtain ⟨r1, -⟩ := runs_aligned hP.1 hP.2.2.2.2.2 hP.2.1 hbase hsub (.inr (.inr hZ)) (by
      intro t ht'
      rw [hd, List.map_map] at ht'
      obtain ⟨i, -, rfl⟩ := List.mem_map.1 ht'
      simp only [Function.comp_apply]
      positivity) (by
      rw [hd]
      exact ht.sorted.map _ fun σ τ h => mul_lt_mul_of_pos_right (by exact_mod_cast h) hc)
  have hl : Z.diff.n.length = F / 2 := by
    rw [e1, resolved_pair hN, List.length_map, List.length_take, List.length_map, List.length_range]
    omega
  obtain ⟨b0, k, -, -, i2, -, b1, -, i3⟩ := mscdBootstrap_inv hm
  refine ⟨⟨r1, by rw [i2.lv, i2.ln], hl⟩, hc, fun i hi => ?_⟩
  have hk : k = F / 2 := by rw [← hl, i2.ln]
  obtain ⟨-, -, a, -, -, hno⟩ := base_entry hP hbase hB ht (by omega) (τ := i + 1) (by omega) (by omega) (half_entry (show 1 ≤ atoms.length by omega) (show 1 ≤ i + 1 by omega) (Or.inr ⟨hN, by omega⟩)).1
  rw [Nat.add_sub_cancel] at hno
  rw [← hno, i3]
  show (B.nO.take k)[i]? = _
  rw [List.getElem?_take, if_pos (by omega)]

/-! ## C160 -/

/-- **C160 (jump diffusion).** The total displacement of two or more atoms makes independent normal steps of variance `σ²` along every axis; within one step the atoms may move together in any way.  An analysis of `F` frames with all intervals is fitted with the random
walk model from the interval `r` on, which has at most a third of the frames, with `curve_fit` as documented.  Then the fitted coefficient is on average at most 19/32 of that of the walk, apart from `4 / F`, and at least half of it, because the intervals up to half of
the frames decide (C155), for which the variances are too small (C159).  The gradient that the fit without an intercept reports (`y₀ / t₀`, C156) has almost the mean of the walk, but the variance `α / n₀` that its samples have (C156) is on average between half of the
true variance of the gradient and 57/64 of it, apart from `6 / F`: from 55 frames on it is too small, however many atoms there are. -/
theorem C160_mstd (μ : Measure Ω) [IsProbabilityMeasure μ] (E : Num ℝ) (P : Params ℝ) (S : Select ℝ) (sy : List String)
    (atoms fw : List ℕ) (hS : Picks S sy atoms fw) (hN : 2 ≤ atoms.length) (hP : DefaultGrid E P) (F : ℕ)
    (hn : (F : ℤ) ≤ P.nSteps) (L : M3 ℝ) (V : ℝ) (u : Ω → ℕ → ℕ → V3 ℝ) (m : Ω → ℕ → ℕ → Fin 3 → ℤ)
    (hstep : ∀ ω, ∀ i < sy.length, ∀ j, j + 1 < F → HalfCell fun k => u ω i (j + 1) k - u ω i j k)
    (Ξ : ℕ × Fin 3 → Ω → ℝ) (h : RandomWalk μ Ξ) (σ : ℝ) (hs : NormalMoments μ Ξ σ)
    (hΞ : ∀ j l ω, totalMove L (u ω) fw atoms (fun _ => 1) j (j + 1) l = Ξ (j, l) ω)
    (sq : ℝ → ℝ) (hsq : IsSqrt sq) (o : Oracle ℝ G) (U : UncParams ℝ) (hblock : U.opt.block = false) (hsub : U.sub = 1)
    (base : Ω → PyM (Base ℝ)) (unit : ℝ) (hbase : ∀ ω, ReadFrom E P S F sy L V (u ω) (m ω) (base ω) unit) (g g' : Ω → G)
    (Z : Ω → Analyzer ℝ) (hZ : ∀ ω, jumpAnalyzer sq o (g ω) U (base ω) = .ok (Z ω, g' ω)) (r : ℕ) (h3 : 3 * (r + 1) ≤ F)
    (lib : Ω → GlsLib ℝ) (hlib : ∀ ω, LeastSquares (lib ω)) (α : Ω → ℝ)
    (hα : ∀ ω, (lib ω).curveFit ((Z ω).diff.nO.drop r) ((Z ω).diff.dt.drop r) ((Z ω).diff.v.drop r) = .ok (α ω)) :
    let N : ℝ := atoms.length
    let c := P.stepSkip.val * P.timeStep.val / unit
    let A : Finset (Fin 3) := axesOf U.dimension
    let γ := fun ω => valuesFrom (Z ω).diff r 0 / timesFrom (Z ω).diff r 0
    let s := fun ω => α ω / (Z ω).diff.nO.getD r 0
    (Integrable α μ ∧ N * (1 / 2 * walkCoefficient A σ c) ≤ ∫ ω, α ω ∂μ ∧ ∫ ω, α ω ∂μ ≤ N * ((19 / 32 + 4 / F) * walkCoefficient A σ c)) ∧
    (MemLp γ 2 μ ∧ ∫ ω, γ ω ∂μ = A.card * σ ^ 2 / c * (1 - 1 / ((r + 1) * (F - r)))) ∧
    Integrable s μ ∧ 1 / 2 * Var[γ; μ] ≤ ∫ ω, s ω ∂μ ∧ ∫ ω, s ω ∂μ ≤ (57 / 64 + 6 / F) * Var[γ; μ] ∧ (55 ≤ F → 0 < σ → A.Nonempty → ∫ ω, s ω ∂μ < Var[γ; μ]) := by
  have hl := fun ω => run_lists_mstd (fw := fw) hS hN hP (by omega) hn (hstep ω) hblock hsub (hbase ω) (hZ ω)
  obtain ⟨ω₀⟩ := μ.nonempty_of_neZero
  have all : ∀ ω i, i < F / 2 → ∃ a, _ := fun ω i hi => run_entry_mstd (fw := fw) hS (List.ne_nil_of_length_pos (by omega)) hP hn (hstep ω) hsq hblock hsub (hbase ω) (hZ ω)
    (show 1 ≤ i + 1 by omega) (Or.inr ⟨hN, by omega⟩)
  have : Nonempty (Arr3 ℝ) := ⟨(all ω₀ 0 (by omega)).choose⟩
  choose! a ha e2 e1 e4 using all
  simp only [Nat.add_sub_cancel] at e1 e2 e4
  exact total_error_bar h hs hΞ (axesOf U.dimension) h3 (by exact_mod_cast (by omega : 0 < atoms.length)) (hl ω₀).2.1 a ha (fun ω => (Z ω).diff) (fun ω => (hl ω).1)
    (fun ω i hi => by rw [e2 ω i hi, mul_assoc, mul_div_assoc]) (fun ω => (hl ω).2.2) e1 e4 lib hlib α hα

/-- **C160 (conductivity).** The same for the displacements weighted by the charges. -/
theorem C160_mscd (μ : Measure Ω) [IsProbabilityMeasure μ] (E : Num ℝ) (P : Params ℝ) (S : Select ℝ) (sy : List String)
    (atoms fw : List ℕ) (hS : Picks S sy atoms fw) (hN : 2 ≤ atoms.length) (hP : DefaultGrid E P) (F : ℕ)
    (hn : (F : ℤ) ≤ P.nSteps) (L : M3 ℝ) (V : ℝ) (u : Ω → ℕ → ℕ → V3 ℝ) (m : Ω → ℕ → ℕ → Fin 3 → ℤ)
    (hstep : ∀ ω, ∀ i < sy.length, ∀ j, j + 1 < F → HalfCell fun k => u ω i (j + 1) k - u ω i j k)
    (charge : Charge ℝ) (hq : ∀ l, charge = .array l → l.length = atoms.length)
    (Ξ : ℕ × Fin 3 → Ω → ℝ) (h : RandomWalk μ Ξ) (σ : ℝ) (hs : NormalMoments μ Ξ σ)
    (hΞ : ∀ j l ω, totalMove L (u ω) fw atoms charge.of j (j + 1) l = Ξ (j, l) ω)
    (sq : ℝ → ℝ) (hsq : IsSqrt sq) (o : Oracle ℝ G) (U : UncParams ℝ) (hblock : U.opt.block = false) (hsub : U.sub = 1)
    (base : Ω → PyM (Base ℝ)) (unit : ℝ) (hbase : ∀ ω, ReadFrom E P S F sy L V (u ω) (m ω) (base ω) unit) (g g' : Ω → G)
    (Z : Ω → Analyzer ℝ) (hZ : ∀ ω, conductivityAnalyzer sq o (g ω) U charge (base ω) = .ok (Z ω, g' ω)) (r : ℕ) (h3 : 3 * (r + 1) ≤ F)
    (lib : Ω → GlsLib ℝ) (hlib : ∀ ω, LeastSquares (lib ω)) (α : Ω → ℝ)
    (hα : ∀ ω, (lib ω).curveFit ((Z ω).diff.nO.drop r) ((Z ω).diff.dt.drop r) ((Z ω).diff.v.drop r) = .ok (α ω)) :
    let N : ℝ := atoms.length
    let c := P.stepSkip.val * P.timeStep.val / unit
    let A : Finset (Fin 3) := Finset.univ
    let γ := fun ω => valuesFrom (Z ω).diff r 0 / timesFrom (Z ω).diff r 0
    let s := fun ω => α ω / (Z ω).diff.nO.getD r 0
    (Integrable α μ ∧ N * (1 / 2 * walkCoefficient A σ c) ≤ ∫ ω, α ω ∂μ ∧ ∫ ω, α ω ∂μ ≤ N * ((19 / 32 + 4 / F) * walkCoefficient A σ c)) ∧
    (MemLp γ 2 μ ∧ ∫ ω, γ ω ∂μ = A.card * σ ^ 2 / c * (1 - 1 / ((r + 1) * (F - r)))) ∧
    Integrable s μ ∧ 1 / 2 * Var[γ; μ] ≤ ∫ ω, s ω ∂μ ∧ ∫ ω, s ω ∂μ ≤ (57 / 64 + 6 / F) * Var[γ; μ] ∧ (55 ≤ F → 0 < σ → A.Nonempty → ∫ ω, s ω ∂μ < Var[γ; μ]) := by
  have hl := fun ω => run_lists_mscd (fw := fw) hS hN hP (by omega) hn (hstep ω) hq hblock hsub (hbase ω) (hZ ω)
  obtain ⟨ω₀⟩ := μ.nonempty_of_neZero
  have all : ∀ ω i, i < F / 2 → ∃ a, _ := fun ω i hi => run_entry_mscd (fw := fw) hS (List.ne_nil_of_length_pos (by omega)) hP hn (hstep ω) hq hsq hblock hsub (hbase ω) (hZ ω)
    (show 1 ≤ i + 1 by omega) (Or.inr ⟨hN, by omega⟩)
  have : Nonempty (Arr3 ℝ) := ⟨(all ω₀ 0 (by omega)).choose⟩
  choose! a ha e2 e1 e4 using all
  simp only [Nat.add_sub_cancel] at e1 e2 e4
  exact total_error_bar h hs hΞ Finset.univ h3 (by exact_mod_cast (by omega : 0 < atoms.length)) (hl ω₀).2.1 a ha (fun ω => (Z ω).diff) (fun ω => (hl ω).1)
    (fun ω i hi => by rw [e2 ω i hi, mul_assoc, mul_div_assoc]) (fun ω => (hl ω).2.2) e1 e4 lib hlib α hα

/-! ### Example: two independent atoms with steps of 1/4, 0 and -1/4 -/

/-- `curve_fit` succeeds on the lists of a run. -/
theorem exHalf_fit {b : Boot ℝ} {M : ℕ} (hM : 1 < M) (hb : (InverseCounts b ∧ Aligned b) ∧ b.v.length = b.n.length ∧ b.n.length = M) (e4 : ∀ i < M, ∃ y, b.v[i]? = some (some y)) :
    ∃ α, exLsLibR.curveFit (b.nO.drop 1) (b.dt.drop 1) (b.v.drop 1) = .ok α := by
  obtain ⟨⟨hI, hal⟩, l1, l2⟩ := hb
  have e1 : (b.dt.drop 1).getD 0 0 = b.dt.getD 1 0 := by simp only [List.getD_eq_getElem?_getD, List.getElem?_drop]
  have e2 : (b.nO.drop 1).getD 0 0 = b.nO.getD 1 0 := by simp only [List.getD_eq_getElem?_getD, List.getElem?_drop]
  refine exLeastR_ok (fun x hx => ?_) ?_ ?_ ?_
  · obtain ⟨i, hi, rfl⟩ := List.mem_iff_getElem.1 (List.mem_of_mem_drop hx)
    obtain ⟨y, h4⟩ := e4 i (by omega)
    rw [List.getElem?_eq_getElem hi] at h4
    exact ⟨_, Option.some.inj h4⟩
  · rw [List.length_drop]
    omega
  · rw [e1, List.getD_eq_getElem _ _ (by have := hal.1; have := hal.2.1; omega)]
    exact hI.2.1 _ (List.getElem_mem _)
  · rw [e2, List.getD_eq_getElem _ _ (by have := hal.1; have := hal.2.1; omega)]
    exact hI.2.2 _ (List.getElem_mem _)

/-- Two independent atoms, 1000 frames, all intervals from 2 frames on: the variances of the samples are on average at most 9/10 of the true variances of the gradients of the MSTD, and of the MSCD for the charges 2 and -1. -/
example : ∃ J Y : (ℕ × ℕ × Fin 3 → Fin 3) → Analyzer ℝ, ∃ α β : (ℕ × ℕ × Fin 3 → Fin 3) → ℝ,
    (∀ ω, jumpAnalyzer Real.sqrt (exOracle ℝ) () exUncR (fromAse exNumR (exParamsF 1000) exSelectR 1 none
      (.one (wrapped 1000 ["Li", "Li", "O"] exCube 1 (exTwoLeaping ω) fun _ _ _ => 0))) = .ok (J ω, ())) ∧
    (∀ ω, conductivityAnalyzer Real.sqrt (exOracle ℝ) () exUncR (.array [2, -1]) (fromAse exNumR (exParamsF 1000) exSelectR 1 none
      (.one (wrapped 1000 ["Li", "Li", "O"] exCube 1 (exTwoLeaping ω) fun _ _ _ => 0))) = .ok (Y ω, ())) ∧
    (∀ ω, exLsLibR.curveFit ((J ω).diff.nO.drop 1) ((J ω).diff.dt.drop 1) ((J ω).diff.v.drop 1) = .ok (α ω)) ∧
    (∀ ω, exLsLibR.curveFit ((Y ω).diff.nO.drop 1) ((Y ω).diff.dt.drop 1) ((Y ω).diff.v.drop 1) = .ok (β ω)) ∧
    (∫ ω, α ω / (J ω).diff.nO.getD 1 0 ∂exLeaps ≤ 9 / 10 * Var[fun ω => valuesFrom (J ω).diff 1 0 / timesFrom (J ω).diff 1 0; exLeaps] ∧
      ∫ ω, α ω / (J ω).diff.nO.getD 1 0 ∂exLeaps < Var[fun ω => valuesFrom (J ω).diff 1 0 / timesFrom (J ω).diff 1 0; exLeaps]) ∧
    ∫ ω, β ω / (Y ω).diff.nO.getD 1 0 ∂exLeaps ≤ 9 / 10 * Var[fun ω => valuesFrom (Y ω).diff 1 0 / timesFrom (Y ω).diff 1 0; exLeaps] ∧
      ∫ ω, β ω / (Y ω).diff.nO.getD 1 0 ∂exLeaps < Var[fun ω => valuesFrom (Y ω).diff 1 0 / timesFrom (Y ω).diff 1 0; exLeaps] := by
  choose J hJ using fun ω => (exTwoLeaping_runs ω 1000 (by omega)).1
  choose Y hY using fun ω => (exTwoLeaping_runs ω 1000 (by omega)).2
  have hax : (axesOf exUncR.dimension).card = 3 := by decide +kernel
  have hg : DefaultGrid exNumR (exParamsF 1000) := by
    refine ⟨rfl, ?_, rfl, rfl, rfl, rfl⟩
    simp [exParamsF, PyNum.val]
  have hS : Picks (exSelectR) ["Li", "Li", "O"] [0, 1] [2] := .species ["Li"] rfl rfl
  have hq : ∀ l : List ℝ, Charge.array [2, -1] = .array l → l.length = [0, 1].length := by rintro l ⟨⟩; rfl
  have hsq : IsSqrt Real.sqrt := fun x hx => ⟨Real.sqrt_nonneg x, Real.sq_sqrt hx⟩
  obtain ⟨Ξ, x1, x2, x3⟩ := exTwoLeaping_total fun _ => 1
  obtain ⟨Θ, y1, y2, y3⟩ := exTwoLeaping_total (Charge.array [2, -1] : Charge ℝ).of
  have q0 : (Charge.array [2, -1] : Charge ℝ).of 0 = 2 := rfl
  have q1 : (Charge.array [2, -1] : Charge ℝ).of 1 = -1 := rfl
  rw [q0, q1] at y2
  have px : 0 < Real.sqrt ((1 : ℝ) ^ 2 + 1 ^ 2) * Real.sqrt (1 / 48) := by positivity
  have py : 0 < Real.sqrt ((2 : ℝ) ^ 2 + (-1) ^ 2) * Real.sqrt (1 / 48) := by positivity
  have fJ : ∀ ω, ∃ α, exLsLibR.curveFit ((J ω).diff.nO.drop 1) ((J ω).diff.dt.drop 1) ((J ω).diff.v.drop 1) = .ok α := by
    intro ω
    refine exHalf_fit (M := 1000 / 2) (by norm_num) (run_lists_mstd (fw := [2]) hS (by simp) hg (F := 1000) (by norm_num) (le_refl _) (fun i _ j _ => exTwoLeaping_half ω i j) rfl rfl (unit := 1)
      (m := fun _ _ _ => 0) (Or.inl ⟨rfl, rfl⟩) (hJ ω)).1 fun i hi => ?_
    obtain ⟨a, -, -, -, e⟩ := run_entry_mstd (fw := [2]) hS (by simp) hg (F := 1000) (le_refl _) (fun i _ j _ => exTwoLeaping_half ω i j) hsq rfl rfl (unit := 1) (m := fun _ _ _ => 0) (Or.inl ⟨rfl, rfl⟩) (hJ ω)
      (show 1 ≤ i + 1 by omega) (Or.inr ⟨by simp, by omega⟩)
    exact ⟨_, e⟩
  have fY : ∀ ω, ∃ α, exLsLibR.curveFit ((Y ω).diff.nO.drop 1) ((Y ω).diff.dt.drop 1) ((Y ω).diff.v.drop 1) = .ok α := by
    intro ω
    refine exHalf_fit (M := 1000 / 2) (by norm_num) (run_lists_mscd (fw := [2]) hS (by simp) hg (F := 1000) (by norm_num) (le_refl _) (fun i _ j _ => exTwoLeaping_half ω i j) hq rfl rfl (unit := 1)
      (m := fun _ _ _ => 0) (Or.inl ⟨rfl, rfl⟩) (hY ω)).1 fun i hi => ?_
    obtain ⟨a, -, -, -, e⟩ := run_entry_mscd (fw := [2]) hS (by simp) hg (F := 1000) (le_refl _) (fun i _ j _ => exTwoLeaping_half ω i j) hq hsq rfl rfl (unit := 1) (m := fun _ _ _ => 0) (Or.inl ⟨rfl, rfl⟩) (hY ω)
      (show 1 ≤ i + 1 by omega) (Or.inr ⟨by simp, by omega⟩)
    exact ⟨_, e⟩
  choose α hα using fJ
  choose β hβ using fY
  obtain ⟨-, -, -, -, c1, c2⟩ := C160_mstd exLeaps exNumR (exParamsF 1000) exSelectR ["Li", "Li", "O"] [0, 1] [2] hS (by simp) hg 1000
      (le_refl _) exCube 1 exTwoLeaping (fun _ _ _ _ => 0) (fun ω i _ j _ => exTwoLeaping_half ω i j) Ξ x1 _ x2 x3 Real.sqrt hsq (exOracle ℝ) exUncR rfl rfl _ 1 (fun ω => Or.inl ⟨rfl, rfl⟩)
      (fun _ => ()) (fun _ => ()) J (fun ω => hJ ω) 1 (by norm_num) (fun _ => exLsLibR) (fun _ => exLsLibR_least) α hα
  obtain ⟨-, -, -, -, d1, d2⟩ := C160_mscd exLeaps exNumR (exParamsF 1000) exSelectR ["Li", "Li", "O"] [0, 1] [2] hS (by simp) hg 1000
      (le_refl _) exCube 1 exTwoLeaping (fun _ _ _ _ => 0) (fun ω i _ j _ => exTwoLeaping_half ω i j) (.array [2, -1]) hq Θ y1 _ y2 y3 Real.sqrt hsq (exOracle ℝ) exUncR rfl rfl _ 1
      (fun ω => Or.inl ⟨rfl, rfl⟩) (fun _ => ()) (fun _ => ()) Y (fun ω => hY ω) 1 (by norm_num) (fun _ => exLsLibR) (fun _ => exLsLibR_least) β hβ
  refine ⟨J, Y, α, β, hJ, hY, hα, hβ, ⟨c1.trans (mul_le_mul_of_nonneg_right (by norm_num) (variance_nonneg _ _)), c2 (by norm_num) px (Finset.card_pos.1 (by rw [hax]; norm_num))⟩,
    d1.trans (mul_le_mul_of_nonneg_right (by norm_num) (variance_nonneg _ _)), d2 (by norm_num) py Finset.univ_nonempty⟩

end Kinisi
