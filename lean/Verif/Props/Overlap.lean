import Verif.Lemmas.Overlap
import Verif.Spec.Overlap
import Verif.Props.Counts
import Verif.Props.Consistency
import Verif.Props.Unbiased

/-!
# Are the error bars of the reported MSD of a random walk right? C157
-/

set_option linter.unusedSectionVars false
set_option linter.unusedVariables false

namespace Kinisi
open MeasureTheory ProbabilityTheory Spec

variable {Ω : Type} [MeasurableSpace Ω] {μ : Measure Ω} [IsProbabilityMeasure μ] {G : Type}

/-- Steps in the `k`-th window. -/
def stepsIn (τ k : ℕ) : ℕ := if k = 0 then τ - 1 else τ

theorem winSet_card (τ : ℕ) (w : ℕ × ℕ × Fin 3) : (winSet τ w).card = stepsIn τ w.2.1 := by
  unfold winSet
  rw [Finset.card_image_of_injective _ (fun a b h => (Prod.mk.inj (Prod.mk.inj h).2).1), Nat.card_Ico]
  unfold stepsIn
  split_ifs <;> omega

/-- Steps that two windows share. -/
theorem winSet_inter (τ : ℕ) (i j k : ℕ) (l : Fin 3) :
    (winSet τ (i, j, l) ∩ winSet τ (i, k, l)).card = if j = 0 ∧ k = 0 then τ - 1 else sharedSteps τ j k := by
  have e : winSet τ (i, j, l) ∩ winSet τ (i, k, l) = (Finset.Ico (max (j - 1) (k - 1)) (min (j + τ - 1) (k + τ - 1))).image fun s => (i, s, l) := by
    ext q
    rw [Finset.mem_inter, mem_winSet, mem_winSet, Finset.mem_image]
    constructor
    · rintro ⟨⟨a1, ⟨a2, a3⟩, a4⟩, -, ⟨b2, b3⟩, -⟩
      dsimp only at *
      exact ⟨q.2.1, Finset.mem_Ico.mpr ⟨by omega, by omega⟩, by rw [← a1, ← a4]⟩
    · rintro ⟨s, hs, rfl⟩
      rw [Finset.mem_Ico] at hs
      dsimp only
      exact ⟨⟨rfl, ⟨by omega, by omega⟩, rfl⟩, rfl, ⟨by omega, by omega⟩, rfl⟩
  rw [e, Finset.card_image_of_injective _ (fun a b h => (Prod.mk.inj (Prod.mk.inj h).2).1), Nat.card_Ico]
  unfold sharedSteps
  split_ifs <;> omega

theorem winSet_apart {τ : ℕ} {w w' : ℕ × ℕ × Fin 3} (h : ¬ (w'.1 = w.1 ∧ w'.2.2 = w.2.2)) : (winSet τ w ∩ winSet τ w').card = 0 := by
  rw [Finset.card_eq_zero, ← Finset.disjoint_iff_inter_eq_empty, Finset.disjoint_left]
  intro q ha hb
  rw [mem_winSet] at ha hb
  exact h ⟨hb.1.symm.trans ha.1, hb.2.2.symm.trans ha.2.2⟩

/-- Covariance of the squared displacements of two windows. -/
theorem cov_win {ξ : ℕ × ℕ × Fin 3 → Ω → ℝ} (h : RandomWalk μ ξ) {σ : ℝ} (hs : NormalMoments μ ξ σ) (τ : ℕ) (w w' : ℕ × ℕ × Fin 3) :
    cov[fun ω => moveOver ξ (winSet τ w) ω ^ 2, fun ω => moveOver ξ (winSet τ w') ω ^ 2; μ] = 2 * ((winSet τ w ∩ winSet τ w').card : ℝ) ^ 2 * σ ^ 4 := by
  rw [cov_inter h, moveOver_var h hs]

theorem sum_win (τ W : ℕ) (h1 : 1 ≤ τ) (hW : 0 < W) (i : ℕ) (l : Fin 3) :
    ∑ j ∈ Finset.range W, ∑ k ∈ Finset.range W, ((winSet τ (i, j, l) ∩ winSet τ (i, k, l)).card : ℝ) ^ 2 = windowSum τ W := by
  unfold windowSum sharedSum
  simp only [winSet_inter]
  obtain ⟨V, rfl⟩ : ∃ V, W = V + 1 := ⟨W - 1, by omega⟩
  have e : ∀ (f : ℕ → ℕ → ℝ), ∑ j ∈ Finset.range (V + 1), ∑ k ∈ Finset.range (V + 1), f j k =
      ∑ j ∈ Finset.range V, ∑ k ∈ Finset.range (V + 1), f (j + 1) k + (∑ k ∈ Finset.range V, f 0 (k + 1) + f 0 0) := by
    intro f
    rw [Finset.sum_range_succ', Finset.sum_range_succ' (fun k => f 0 k)]
  rw [e, e]
  have t : ((τ - 1 : ℕ) : ℝ) = τ - 1 := by rw [Nat.cast_sub h1, Nat.cast_one]
  have s0 : sharedSteps τ 0 0 = τ := by unfold sharedSteps; omega
  simp only [Nat.succ_ne_zero, false_and, and_false, if_false, and_self, if_true, t, s0]
  ring

/-- The variance of `reportedMsd` for normal steps. -/
theorem reportedMsd_var {ξ : ℕ × ℕ × Fin 3 → Ω → ℝ} (h : RandomWalk μ ξ) {σ : ℝ} (hs : NormalMoments μ ξ σ) {L : M3 ℝ} {u : Ω → ℕ → ℕ → V3 ℝ} {fw atoms : List ℕ} (hnd : atoms.Nodup)
    (hne : atoms ≠ []) (hξ : ∀ i ∈ atoms, ∀ j l ω, walkStep L u fw i j l ω = ξ (i, j, l) ω) (A : Finset (Fin 3)) {F τ : ℕ} (h1 : 1 ≤ τ) :
    MemLp (fun ω => reportedMsd A L (u ω) fw atoms F τ) 2 μ ∧
    Var[fun ω => reportedMsd A L (u ω) fw atoms F τ; μ] = 2 * A.card * σ ^ 4 * windowSum τ (F - τ + 1) / (atoms.length * ((F - τ + 1 : ℕ) : ℝ) ^ 2) := by
  have hN : (0 : ℝ) < atoms.length := by exact_mod_cast List.length_pos_of_ne_nil hne
  have hW : (0 : ℝ) < ((F - τ + 1 : ℕ) : ℝ) := by exact_mod_cast Nat.succ_pos _
  set T := F - τ + 1 with hT
  have eX : (fun ω => reportedMsd A L (u ω) fw atoms F τ) = fun ω => ((atoms.length : ℝ) * (T : ℝ))⁻¹ *
      ∑ w ∈ atoms.toFinset ×ˢ (Finset.range T ×ˢ A), moveOver ξ (winSet τ w) ω ^ 2 := funext fun ω => reportedMsd_windows hnd hξ A h1 ω
  have hm : MemLp (fun ω => ∑ w ∈ atoms.toFinset ×ˢ (Finset.range T ×ˢ A), moveOver ξ (winSet τ w) ω ^ 2) 2 μ := memLp_finsetSum _ fun w _ => sq_memLp h _
  refine ⟨by rw [eX]; exact hm.const_mul _, ?_⟩
  rw [eX, variance_const_mul, ← covariance_self hm.aestronglyMeasurable.aemeasurable,
    covariance_fun_sum_fun_sum' (fun a _ => sq_memLp h _) (fun b _ => sq_memLp h _)]
  simp only [cov_win h hs]
  have inner : ∀ w ∈ atoms.toFinset ×ˢ (Finset.range T ×ˢ A), ∑ w' ∈ atoms.toFinset ×ˢ (Finset.range T ×ˢ A), 2 * ((winSet τ w ∩ winSet τ w').card : ℝ) ^ 2 * σ ^ 4 =
      2 * σ ^ 4 * ∑ k ∈ Finset.range T, ((winSet τ w ∩ winSet τ (w.1, k, w.2.2)).card : ℝ) ^ 2 := by
    intro w hw
    rw [Finset.mem_product, Finset.mem_product] at hw
    rw [Finset.sum_product, Finset.sum_eq_single_of_mem w.1 hw.1, Finset.sum_product, Finset.mul_sum]
    · refine Finset.sum_congr rfl fun k _ => ?_
      rw [Finset.sum_eq_single_of_mem w.2.2 hw.2.2]
      · ring
      · intro l _ hl
        rw [winSet_apart (fun e => hl e.2)]
        simp
    · intro i _ hi
      refine Finset.sum_eq_zero fun k _ => ?_
      rw [winSet_apart (fun e => hi e.1)]
      simp
  rw [Finset.sum_congr rfl inner, Finset.sum_product]
  have each : ∀ i ∈ atoms.toFinset, ∑ p ∈ Finset.range T ×ˢ A, 2 * σ ^ 4 * ∑ k ∈ Finset.range T, ((winSet τ (i, p) ∩ winSet τ (i, k, p.2)).card : ℝ) ^ 2 =
      2 * A.card * σ ^ 4 * windowSum τ T := by
    intro i _
    rw [Finset.sum_product, Finset.sum_comm]
    have : ∀ l ∈ A, ∑ j ∈ Finset.range T, 2 * σ ^ 4 * ∑ k ∈ Finset.range T, ((winSet τ (i, j, l) ∩ winSet τ (i, k, l)).card : ℝ) ^ 2 = 2 * σ ^ 4 * windowSum τ T := by
      intro l _
      rw [← Finset.mul_sum, sum_win τ T h1 (Nat.succ_pos _)]
    rw [Finset.sum_congr rfl this, Finset.sum_const, nsmul_eq_mul]
    ring
  rw [Finset.sum_congr rfl each, Finset.sum_const, nsmul_eq_mul, List.toFinset_card_of_nodup hnd]
  field_simp

theorem var_bounds (A : Finset (Fin 3)) (σ : ℝ) {N F τ : ℕ} (hN : 0 < N) (h1 : 1 ≤ τ) (h3 : 3 * τ ≤ F) :
    2 / 3 * sideBySideVar A σ N F τ ≤ 2 * A.card * σ ^ 4 * windowSum τ (F - τ + 1) / (N * ((F - τ + 1 : ℕ) : ℝ) ^ 2) ∧
    2 * A.card * σ ^ 4 * windowSum τ (F - τ + 1) / (N * ((F - τ + 1 : ℕ) : ℝ) ^ 2) ≤ sideBySideVar A σ N F τ := by
  have hW : (0 : ℝ) < ((F - τ + 1 : ℕ) : ℝ) := by exact_mod_cast Nat.succ_pos _
  have hN' : (0 : ℝ) < N := by exact_mod_cast hN
  have ht : (0 : ℝ) < τ := by exact_mod_cast h1
  have hF : (0 : ℝ) < F := by exact_mod_cast (by omega : 0 < F)
  have a := le_windowSum h1 (show 2 * τ + 1 ≤ F - τ + 1 by omega)
  have b := windowSum_le h1 (show 2 * τ + 1 ≤ F - τ + 1 by omega)
  have e : ((F - τ + 1 : ℕ) : ℝ) + τ - 1 = F := by
    push_cast [Nat.cast_sub (show τ ≤ F by omega)]
    ring
  rw [e] at a b
  have hc : 0 ≤ 2 * (A.card : ℝ) * σ ^ 4 := by positivity
  have f : sideBySideVar A σ N F τ = 2 * A.card * σ ^ 4 * ((τ : ℝ) ^ 3 / F) / N := by
    unfold sideBySideVar
    field_simp
  have g : 2 * A.card * σ ^ 4 * windowSum τ (F - τ + 1) / (N * ((F - τ + 1 : ℕ) : ℝ) ^ 2) = 2 * A.card * σ ^ 4 * (windowSum τ (F - τ + 1) / ((F - τ + 1 : ℕ) : ℝ) ^ 2) / N := by
    field_simp
  rw [f, g]
  constructor
  · rw [← mul_div_assoc, mul_left_comm]
    refine div_le_div_of_nonneg_right (mul_le_mul_of_nonneg_left ?_ hc) hN'.le
    rw [← mul_div_assoc, div_le_div_iff₀ hF (by positivity)]
    linarith
  · refine div_le_div_of_nonneg_right (mul_le_mul_of_nonneg_left ?_ hc) hN'.le
    rw [div_le_div_iff₀ (by positivity) hF]
    linarith

/-! ## The expected value of the reported variance -/

/-- The squared displacement of atom `i` over the `k`-th window. -/
def winSq (A : Finset (Fin 3)) (ξ : ℕ × ℕ × Fin 3 → Ω → ℝ) (τ i k : ℕ) (ω : Ω) : ℝ := ∑ l ∈ A, moveOver ξ (winSet τ (i, k, l)) ω ^ 2

theorem winSq_memLp {ξ : ℕ × ℕ × Fin 3 → Ω → ℝ} (h : RandomWalk μ ξ) (A : Finset (Fin 3)) (τ i k : ℕ) : MemLp (winSq A ξ τ i k) 2 μ :=
  memLp_finsetSum _ fun l _ => sq_memLp h _

theorem winSq_second {ξ : ℕ × ℕ × Fin 3 → Ω → ℝ} (h : RandomWalk μ ξ) {σ : ℝ} (hs : NormalMoments μ ξ σ) (A : Finset (Fin 3)) (τ i k : ℕ) :
    ∫ ω, winSq A ξ τ i k ω ^ 2 ∂μ = (2 * A.card + (A.card : ℝ) ^ 2) * σ ^ 4 * (stepsIn τ k : ℝ) ^ 2 := by
  have hm := winSq_memLp h A τ i k
  have mean : ∫ ω, winSq A ξ τ i k ω ∂μ = A.card * (stepsIn τ k * σ ^ 2) := by
    unfold winSq
    rw [integral_finsetSum _ fun l _ => (sq_memLp h _).integrable (by norm_num)]
    simp only [moveOver_second h hs.second, winSet_card]
    rw [Finset.sum_const, nsmul_eq_mul]
  have var : Var[winSq A ξ τ i k; μ] = A.card * (2 * (stepsIn τ k : ℝ) ^ 2 * σ ^ 4) := by
    rw [← covariance_self hm.aestronglyMeasurable.aemeasurable]
    unfold winSq
    rw [covariance_fun_sum_fun_sum' (fun a _ => sq_memLp h _) (fun b _ => sq_memLp h _)]
    simp only [cov_win h hs]
    have : ∀ l ∈ A, ∑ l' ∈ A, 2 * ((winSet τ (i, k, l) ∩ winSet τ (i, k, l')).card : ℝ) ^ 2 * σ ^ 4 = 2 * (stepsIn τ k : ℝ) ^ 2 * σ ^ 4 := by
      intro l hl
      rw [Finset.sum_eq_single_of_mem l hl, Finset.inter_self, winSet_card]
      intro l' _ hl'
      rw [winSet_apart (fun e => hl' e.2)]
      simp
    rw [Finset.sum_congr rfl this, Finset.sum_const, nsmul_eq_mul]
  have := variance_eq_sub hm
  rw [mean, var] at this
  simp only [Pi.pow_apply] at this
  linarith

/-- The squared displacements that the array of interval `τ` holds. -/
theorem sqLen_win {L : M3 ℝ} {u : Ω → ℕ → ℕ → V3 ℝ} {fw atoms : List ℕ} {ξ : ℕ × ℕ × Fin 3 → Ω → ℝ}
    (hξ : ∀ i ∈ atoms, ∀ j l ω, walkStep L u fw i j l ω = ξ (i, j, l) ω) (A : Finset (Fin 3)) {F τ : ℕ} (h1 : 1 ≤ τ) {ω : Ω} {a : Arr3 ℝ}
    (ha : TrueWindows L (u ω) fw atoms F τ a) {p : ℕ × ℕ} (hp : p ∈ Finset.range atoms.length ×ˢ Finset.range (F - τ + 1)) :
    sqLen A a p = winSq A ξ τ (atoms.getD p.1 0) p.2 ω := by
  obtain ⟨s, k⟩ := p
  rw [Finset.mem_product, Finset.mem_range, Finset.mem_range] at hp
  obtain ⟨hs, hk⟩ := hp
  dsimp only at hs hk ⊢
  have hmove : ∀ i ∈ atoms, ∀ s n l, trueMove L (u ω) fw i s (s + n) l = ∑ j ∈ Finset.Ico s (s + n), ξ (i, j, l) ω := by
    intro i hi s n l
    rw [trueMove_steps, Finset.sum_Ico_eq_sum_range, Nat.add_sub_cancel_left]
    exact Finset.sum_congr rfl fun j _ => hξ i hi _ _ _
  obtain ⟨-, -, hw⟩ := ha
  obtain ⟨w1, w2⟩ := hw s hs
  have eg : atoms.getD s 0 = atoms[s] := by
    rw [List.getD_eq_getElem?_getD, List.getElem?_eq_getElem hs]; rfl
  have hi : atoms[s] ∈ atoms := List.getElem_mem hs
  unfold sqLen winSq
  refine Finset.sum_congr rfl fun l _ => ?_
  rw [eg, moveOver_win]
  cases k with
  | zero =>
    have := hmove _ hi 0 (τ - 1) l
    rw [Nat.zero_add] at this
    rw [w1, this]
    simp
  | succ k =>
    rw [w2 k (by omega), hmove _ hi, Nat.add_sub_cancel, show k + 1 + τ - 1 = k + τ from by omega]

theorem sum_stepsIn (τ W : ℕ) (h1 : 1 ≤ τ) (hW : 0 < W) : ∑ k ∈ Finset.range W, (stepsIn τ k : ℝ) ^ 2 = W * (τ : ℝ) ^ 2 - (2 * τ - 1) := by
  obtain ⟨V, rfl⟩ : ∃ V, W = V + 1 := ⟨W - 1, by omega⟩
  rw [Finset.sum_range_succ']
  unfold stepsIn
  simp only [Nat.succ_ne_zero, if_false, if_true, Finset.sum_const, Finset.card_range, nsmul_eq_mul]
  push_cast [Nat.cast_sub h1]
  ring

/-- The mean of the sample variance of the squared displacements. -/
theorem mean_varOn_win {ξ : ℕ × ℕ × Fin 3 → Ω → ℝ} (h : RandomWalk μ ξ) {σ : ℝ} (hs : NormalMoments μ ξ σ) {L : M3 ℝ} {u : Ω → ℕ → ℕ → V3 ℝ} {fw atoms : List ℕ} (hnd : atoms.Nodup)
    (hne : atoms ≠ []) (hξ : ∀ i ∈ atoms, ∀ j l ω, walkStep L u fw i j l ω = ξ (i, j, l) ω) (A : Finset (Fin 3)) {F τ : ℕ} (h1 : 1 ≤ τ) (h2 : τ ≤ F)
    (hNW : 2 ≤ atoms.length * (F - τ + 1)) (a : Ω → Arr3 ℝ) (ha : ∀ ω, TrueWindows L (u ω) fw atoms F τ (a ω)) :
    Integrable (fun ω => varOn (pairs (a ω)) (sqLen A (a ω))) μ ∧ ((atoms.length : ℝ) * ((F - τ + 1 : ℕ) : ℝ) - 1) * ∫ ω, varOn (pairs (a ω)) (sqLen A (a ω)) ∂μ =
      2 * A.card * σ ^ 4 * atoms.length * (((F - τ + 1 : ℕ) : ℝ) * (τ : ℝ) ^ 2 - (2 * τ - 1)) +
      atoms.length * (A.card : ℝ) ^ 2 * σ ^ 4 * (1 - 1 / ((F - τ + 1 : ℕ) : ℝ)) -
      (atoms.length : ℝ) * ((F - τ + 1 : ℕ) : ℝ) * Var[fun ω => reportedMsd A L (u ω) fw atoms F τ; μ] := by
  have hN : (0 : ℝ) < atoms.length := by exact_mod_cast List.length_pos_of_ne_nil hne
  have hW : (0 : ℝ) < ((F - τ + 1 : ℕ) : ℝ) := by exact_mod_cast Nat.succ_pos _
  have hK' : (atoms.length : ℝ) * ((F - τ + 1 : ℕ) : ℝ) - 1 ≠ 0 := by
    have n1 : (2 : ℝ) ≤ atoms.length * ((F - τ + 1 : ℕ) : ℝ) := by exact_mod_cast hNW
    intro e
    linarith
  have hst : StepMoments μ ξ (σ ^ 2) (3 * σ ^ 4) := ⟨hs.second, fun i => (hs.fourth i).le⟩
  set T := F - τ + 1 with hT
  set S := Finset.range atoms.length ×ˢ Finset.range T with hS
  have hcard : (S.card : ℝ) = atoms.length * (T : ℝ) := by
    rw [hS, Finset.card_product, Finset.card_range, Finset.card_range, Nat.cast_mul]
  have hc0 : S.card ≠ 0 := by
    intro e
    rw [e, Nat.cast_zero] at hcard
    have : (0 : ℝ) < atoms.length * (T : ℝ) := by positivity
    linarith
  have hp : ∀ ω, pairs (a ω) = S := by
    intro ω
    unfold pairs
    rw [(ha ω).1, (ha ω).2.1]
  have hmean : ∀ ω, meanOn S (sqLen A (a ω)) = reportedMsd A L (u ω) fw atoms F τ := by
    intro ω
    rw [← hp ω, ← msd_meanOn, msd_true (ha ω)]
  have hmem := reportedMsd_var (F := F) h hs hnd hne hξ A h1
  have hvar : ∀ ω, varOn (pairs (a ω)) (sqLen A (a ω)) = (∑ p ∈ S, winSq A ξ τ (atoms.getD p.1 0) p.2 ω ^ 2 -
      (atoms.length * (T : ℝ)) * reportedMsd A L (u ω) fw atoms F τ ^ 2) / (atoms.length * (T : ℝ) - 1) := by
    intro ω
    unfold varOn
    rw [hp ω, sum_sq_dev S hc0 _ 0, hmean ω, hcard]
    congr 2
    · refine Finset.sum_congr rfl fun p hp' => ?_
      rw [sub_zero, sqLen_win hξ A h1 (ha ω) hp']
    · rw [sub_zero]
  simp only [hvar]
  have hi1 : Integrable (fun ω => ∑ p ∈ S, winSq A ξ τ (atoms.getD p.1 0) p.2 ω ^ 2) μ := integrable_finsetSum _ fun p _ => (winSq_memLp h A τ _ _).integrable_sq
  have hi2 : Integrable (fun ω => (atoms.length * (T : ℝ)) * reportedMsd A L (u ω) fw atoms F τ ^ 2) μ := hmem.1.integrable_sq.const_mul _
  refine ⟨(hi1.sub hi2).div_const _, ?_⟩
  rw [integral_div, integral_sub hi1 hi2, integral_const_mul, integral_finsetSum _ fun p _ => (winSq_memLp h A τ _ _).integrable_sq]
  simp only [winSq_second h hs]
  have hX := reportedMsd_mean (uncorrelated_of_walk h hst hξ (F - 1)) hne A h1 h2
  have v := variance_eq_sub hmem.1
  simp only [Pi.pow_apply] at v
  rw [hX, ← hT] at v
  have hsq : ∫ ω, reportedMsd A L (u ω) fw atoms F τ ^ 2 ∂μ = Var[fun ω => reportedMsd A L (u ω) fw atoms F τ; μ] + (A.card * σ ^ 2 * (τ - 1 / (T : ℝ))) ^ 2 := by linarith
  rw [hsq, hS, Finset.sum_product]
  simp only [← Finset.mul_sum, sum_stepsIn τ T h1 (Nat.succ_pos _), Finset.sum_const, Finset.card_range, nsmul_eq_mul]
  rw [mul_div_cancel₀ _ hK']
  field_simp
  ring

theorem varOn_bounds {d B N W T V E ρ : ℝ} (hd0 : 0 ≤ d) (hd : d ≤ 3) (hB : 0 ≤ B) (hN : 1 ≤ N) (hT : 1 ≤ T) (hW : 2 * T + 1 ≤ W) (hV0 : 0 ≤ V)
    (hρ : T ≤ ρ * (W + T - 1)) (hρ3 : ρ ≤ 1 / 3)
    (hV : V ≤ 2 * d * B * T ^ 3 / (N * (W + T - 1)))
    (hE : (N * W - 1) * E = 2 * d * B * N * (W * T ^ 2 - (2 * T - 1)) + N * d ^ 2 * B * (1 - 1 / W) - N * W * V) :
    (1 - 2 / (T * W) - ρ / N) * (2 * d * B * T ^ 2) ≤ E ∧ E ≤ N * W / (N * W - 1) * (1 + 1 / (2 * W)) * (2 * d * B * T ^ 2) := by
  have hW0 : 0 < W := by linarith
  have hF : 3 * T ≤ W + T - 1 := by linarith
  have hF0 : 0 < W + T - 1 := by linarith
  have hN0 : 0 < N := by linarith
  have hT0 : 0 < T := by linarith
  have hNW : 3 ≤ N * W := by nlinarith
  have hdB : 0 ≤ d * B := mul_nonneg hd0 hB
  have hi : 0 ≤ 1 - 1 / W := by
    rw [sub_nonneg, div_le_one hW0]
    linarith
  have hi1 : 1 - 1 / W ≤ 1 := by
    have : 0 ≤ 1 / W := by positivity
    linarith
  have hρ0 : 0 ≤ ρ := by
    by_contra hc
    nlinarith
  constructor
  · have hNV : N * W * V ≤ 2 * (d * B) * W * T ^ 2 * ρ := by
      calc N * W * V ≤ N * W * (2 * d * B * T ^ 3 / (N * (W + T - 1))) := mul_le_mul_of_nonneg_left hV (by positivity)
        _ = 2 * (d * B) * W * T ^ 2 * (T / (W + T - 1)) := by field_simp
        _ ≤ 2 * (d * B) * W * T ^ 2 * ρ := by
          refine mul_le_mul_of_nonneg_left ?_ (by positivity)
          rw [div_le_iff₀ hF0]
          exact hρ
    set X := 1 - 2 / (T * W) - ρ / N with hX
    have hX0 : 0 ≤ X := by
      have a : 2 / (T * W) ≤ 2 / 3 := by
        rw [div_le_div_iff₀ (by positivity) (by norm_num)]
        nlinarith
      have b : ρ / N ≤ 1 / 3 := (div_le_self hρ0 hN).trans hρ3
      linarith
    have e : N * W * (X * (2 * d * B * T ^ 2)) = 2 * (d * B) * N * W * T ^ 2 - 2 * (d * B) * N * (2 * T) - 2 * (d * B) * W * T ^ 2 * ρ := by
      rw [hX]
      field_simp
    have g1 : 0 ≤ N * d ^ 2 * B * (1 - 1 / W) := by positivity
    have g2 : 0 ≤ d * B * N := by positivity
    have low : N * W * (X * (2 * d * B * T ^ 2)) ≤ (N * W - 1) * E := by
      rw [e, hE]
      nlinarith
    have y0 : 0 ≤ X * (2 * d * B * T ^ 2) := by positivity
    have : (N * W - 1) * (X * (2 * d * B * T ^ 2)) ≤ (N * W - 1) * E := by nlinarith
    exact le_of_mul_le_mul_left this (by linarith)
  · have hK : 0 < N * W - 1 := by linarith
    have e : N * W / (N * W - 1) * (1 + 1 / (2 * W)) * (2 * d * B * T ^ 2) = (N * (W + 1 / 2) * (2 * d * B * T ^ 2)) / (N * W - 1) := by
      field_simp
    rw [e, le_div_iff₀ hK, mul_comm, hE]
    have h0 : 0 ≤ N * W * V := by positivity
    have g : N * d ^ 2 * B * (1 - 1 / W) ≤ N * d ^ 2 * B := mul_le_of_le_one_right (by positivity) hi1
    have g2 : N * d ^ 2 * B ≤ 3 * (N * (d * B)) := by
      have : 0 ≤ N * (d * B) := by positivity
      nlinarith
    have g3 : 0 ≤ N * (d * B) := by positivity
    have t2 : T ≤ T ^ 2 := by nlinarith
    nlinarith

/-- What is parsed for the interval of `τ` frames when all intervals are chosen. -/
theorem base_entry {E : Num ℝ} {P : Params ℝ} {S : Select ℝ} {sy : List String} {atoms fw : List ℕ} (hP : DefaultGrid E P) {F : ℕ} {L : M3 ℝ} {V : ℝ} {u : ℕ → ℕ → V3 ℝ} {m : ℕ → ℕ → Fin 3 → ℤ}
    {base : PyM (Base ℝ)} {unit : ℝ} (hbase : ReadFrom E P S F sy L V u m base unit) {B : Base ℝ} (hB : base = .ok B)
    (ht : TrueBase L V u fw atoms F P.nSteps (fun τ => (τ : ℝ) * P.stepSkip.val * P.timeStep.val / unit) ((List.range F).map fun i => i + 1) B)
    (hF2 : 2 ≤ F) {τ : ℕ} (h1 : 1 ≤ τ) (h2 : τ ≤ F) (hr : (resolved atoms.length F ((List.range F).map fun i => i + 1))[τ - 1]? = some τ) :
    (∀ n ∈ B.nO, 0 < n) ∧ (∀ a ∈ B.disp3d, a.n0 = atoms.length) ∧ ∃ a, B.disp3d[τ - 1]? = some a ∧ TrueWindows L u fw atoms F τ a ∧ B.nO[τ - 1]? = some (atoms.length * ((F : ℝ) / τ)) := by
  have hu : 0 < unit := by rcases hbase with ⟨-, rfl⟩ | ⟨-, rfl⟩ | ⟨-, rfl⟩ <;> norm_num
  have hc : 0 < P.stepSkip.val * P.timeStep.val / unit := div_pos hP.2.1 hu
  have ed : B.deltaT = (List.range F).map fun i => ((i + 1 : ℕ) : ℝ) * (P.stepSkip.val * P.timeStep.val / unit) := by
    rw [ht.deltaT, List.map_map]
    refine List.map_congr_left fun i _ => ?_
    simp only [Function.comp]
    ring
  obtain ⟨c1, c2, c3⟩ := read_count hP.1 hP.2.2.2.2.2 hP.2.1 hbase hB (by
      intro t ht'
      rw [ed] at ht'
      obtain ⟨i, -, rfl⟩ := List.mem_map.1 ht'
      positivity) (by
      rw [ed]
      exact List.pairwise_lt_range.map _ fun i j hij => mul_le_mul_of_nonneg_right (by exact_mod_cast (by omega : i + 1 ≤ j + 1)) hc.le)
  obtain ⟨hl, hw⟩ := List.forall₂_iff_get.1 ht.windows
  obtain ⟨hlt, hget⟩ := List.getElem?_eq_some_iff.1 hr
  have hltd : τ - 1 < B.disp3d.length := by rw [← hl]; exact hlt
  have ha := hw (τ - 1) hlt hltd
  simp only [List.get_eq_getElem, hget] at ha
  have hltn : τ - 1 < B.nO.length := by rw [c2]; exact hltd
  have hall : ∀ a ∈ B.disp3d, a.n0 = atoms.length := by
    intro a ha'
    obtain ⟨i, hi, rfl⟩ := List.mem_iff_getElem.1 ha'
    exact (hw i (by rw [hl]; exact hi) hi).1
  have hcount := c3 atoms.length hall (τ - 1) ((τ : ℝ) * (P.stepSkip.val * P.timeStep.val / unit)) _ (by
      rw [ed, List.getElem?_map, List.getElem?_range (by omega)]
      simp only [Option.map_some]
      rw [Nat.sub_add_cancel h1]) (List.getElem?_eq_getElem hltn)
  have hlast : B.deltaT.getLastD 0 = (F : ℝ) * (P.stepSkip.val * P.timeStep.val / unit) := by
    obtain ⟨f, rfl⟩ : ∃ f, F = f + 1 := ⟨F - 1, by omega⟩
    rw [ed, List.range_succ, List.map_append, List.map_singleton, List.getLastD_eq_getLast?, List.getLast?_append]
    simp
  have hτ0 : (τ : ℝ) ≠ 0 := by exact_mod_cast (by omega : τ ≠ 0)
  have hno : B.nO[τ - 1]? = some (atoms.length * ((F : ℝ) / τ)) := by
    rw [List.getElem?_eq_getElem hltn]
    congr 1
    rw [hlast] at hcount
    have h2 : B.nO[τ - 1] * τ = atoms.length * F := by
      refine mul_right_cancel₀ hc.ne' ?_
      linarith
    field_simp
    linarith
  exact ⟨c1, hall, _, List.getElem?_eq_getElem hltd, ha, hno⟩

/-- What an analysis with all intervals reports for the interval of `τ` frames. -/
theorem run_entry_all {E : Num ℝ} {P : Params ℝ} {S : Select ℝ} {sy : List String} {atoms fw : List ℕ} (hS : Picks S sy atoms fw) (hne : atoms ≠ []) (hP : DefaultGrid E P) {F : ℕ}
    (hn : (F : ℤ) ≤ P.nSteps) {L : M3 ℝ} {V : ℝ} {u : ℕ → ℕ → V3 ℝ} {m : ℕ → ℕ → Fin 3 → ℤ} (hstep : ∀ i < sy.length, ∀ j, j + 1 < F → HalfCell fun k => u i (j + 1) k - u i j k)
    {sq : ℝ → ℝ} (hsq : IsSqrt sq) {o : Oracle ℝ G} {U : UncParams ℝ} (hblock : U.opt.block = false) (hsub : U.sub = 1) {base : PyM (Base ℝ)} {unit : ℝ} (hbase : ReadFrom E P S F sy L V u m base unit)
    {g g' : G} {Z : Analyzer ℝ} (hZ : diffusionAnalyzer sq o g U base = .ok (Z, g')) (hF2 : 2 ≤ F) {τ : ℕ} (h1 : 1 ≤ τ) (h2 : τ ≤ F) (hr : (resolved atoms.length F ((List.range F).map fun i => i + 1))[τ - 1]? = some τ) :
    ∃ a, TrueWindows L u fw atoms F τ a ∧ Z.diff.n[τ - 1]? = some (reportedMsd (axesOf U.dimension) L u fw atoms F τ) ∧
      Z.diff.dt[τ - 1]? = some ((τ : ℝ) * P.stepSkip.val * P.timeStep.val / unit) ∧
      Z.nO[τ - 1]? = some (atoms.length * ((F : ℝ) / τ)) ∧
      Z.diff.v[τ - 1]? = some (some (varOn (pairs a) (sqLen (axesOf U.dimension) a) / (atoms.length * ((F : ℝ) / τ)))) := by
  obtain ⟨B, hB, hZB, hm⟩ := diffusion_inv hZ
  obtain ⟨taus, -, ht⟩ := read_base hS hP (by omega) hstep hbase hB
  obtain ⟨e1, e2⟩ := msd_of_parsed ht hblock hsub hm
  have := ht.full hn
  subst this
  obtain ⟨c1, -, a, k0, ha, hno⟩ := base_entry hP hbase hB ht hF2 h1 h2 hr
  obtain ⟨hlt, -⟩ := List.getElem?_eq_some_iff.1 hr
  refine ⟨a, ha, ?_, ?_, by rw [hZB]; exact hno, ?_⟩
  · rw [e1, List.getElem?_map, hr]; rfl
  · rw [e2, List.getElem?_map, hr]; rfl
  · obtain ⟨-, -, -, -, -, ds, k1, k2⟩ := C32_variance sq hsq o U.opt hblock _ _ _ _ _ c1 _ _ _ hm
    rw [hsub] at k1
    obtain rfl : B.disp3d = ds := Except.ok.inj ((pyStride_one _).symm.trans k1)
    obtain ⟨a', no, s, f1, f2, f3, -⟩ := k2 (τ - 1) (by rw [e1, List.length_map]; exact hlt)
    rw [k0] at f1
    rw [hno] at f2
    rw [f3, ← Option.some.inj f1, ← Option.some.inj f2]

theorem run_entry {E : Num ℝ} {P : Params ℝ} {S : Select ℝ} {sy : List String} {atoms fw : List ℕ} (hS : Picks S sy atoms fw) (hne : atoms ≠ []) (hP : DefaultGrid E P) {F : ℕ}
    (hn : (F : ℤ) ≤ P.nSteps) {L : M3 ℝ} {V : ℝ} {u : ℕ → ℕ → V3 ℝ} {m : ℕ → ℕ → Fin 3 → ℤ} (hstep : ∀ i < sy.length, ∀ j, j + 1 < F → HalfCell fun k => u i (j + 1) k - u i j k)
    {sq : ℝ → ℝ} (hsq : IsSqrt sq) {o : Oracle ℝ G} {U : UncParams ℝ} (hblock : U.opt.block = false) (hsub : U.sub = 1) {base : PyM (Base ℝ)} {unit : ℝ} (hbase : ReadFrom E P S F sy L V u m base unit)
    {g g' : G} {Z : Analyzer ℝ} (hZ : diffusionAnalyzer sq o g U base = .ok (Z, g')) {τ : ℕ} (h1 : 1 ≤ τ) (h2 : 2 * τ ≤ F) :
    ∃ a, TrueWindows L u fw atoms F τ a ∧ Z.diff.n[τ - 1]? = some (reportedMsd (axesOf U.dimension) L u fw atoms F τ) ∧
      Z.diff.dt[τ - 1]? = some ((τ : ℝ) * P.stepSkip.val * P.timeStep.val / unit) ∧
      Z.nO[τ - 1]? = some (atoms.length * ((F : ℝ) / τ)) ∧
      Z.diff.v[τ - 1]? = some (some (varOn (pairs a) (sqLen (axesOf U.dimension) a) / (atoms.length * ((F : ℝ) / τ)))) :=
  run_entry_all hS hne hP hn hstep hsq hblock hsub hbase hZ (by omega) h1 (by omega) (resolved_all (List.length_pos_of_ne_nil hne) h1 h2)

/-! ## C157 -/

/-- **C157.** The atoms make independent normal steps of variance `σ²` along every axis, relative to the framework.  In an analysis of `F` frames
with all intervals, consider an interval of `τ` frames, `3 τ ≤ F`.  The number of observations is reported as `N F / τ`, the windows that
fit side by side, although the average runs over all windows, which overlap.  The true variance of the reported MSD lies between 2/3 of the
variance for independent windows, as many as reported, and all of it.  The reported variance is on average not below the true one, apart
from a factor that tends to 1 with many atoms and windows, and not above 3/2 of it, apart from such a factor. -/
theorem C157_error_bars (μ : Measure Ω) [IsProbabilityMeasure μ] (E : Num ℝ) (P : Params ℝ) (S : Select ℝ) (sy : List String)
    (atoms fw : List ℕ) (hS : Picks S sy atoms fw) (hnd : atoms.Nodup) (hne : atoms ≠ []) (hP : DefaultGrid E P) (F : ℕ)
    (hn : (F : ℤ) ≤ P.nSteps) (L : M3 ℝ) (V : ℝ) (u : Ω → ℕ → ℕ → V3 ℝ) (m : Ω → ℕ → ℕ → Fin 3 → ℤ)
    (hstep : ∀ ω, ∀ i < sy.length, ∀ j, j + 1 < F → HalfCell fun k => u ω i (j + 1) k - u ω i j k)
    (ξ : ℕ × ℕ × Fin 3 → Ω → ℝ) (h : RandomWalk μ ξ) (σ : ℝ) (hs : NormalMoments μ ξ σ)
    (hξ : ∀ i ∈ atoms, ∀ j l ω, walkStep L u fw i j l ω = ξ (i, j, l) ω)
    (sq : ℝ → ℝ) (hsq : IsSqrt sq) (o : Oracle ℝ G) (U : UncParams ℝ) (hblock : U.opt.block = false) (hsub : U.sub = 1)
    (base : Ω → PyM (Base ℝ)) (unit : ℝ) (hbase : ∀ ω, ReadFrom E P S F sy L V (u ω) (m ω) (base ω) unit) (g g' : Ω → G)
    (Z : Ω → Analyzer ℝ) (hZ : ∀ ω, diffusionAnalyzer sq o (g ω) U (base ω) = .ok (Z ω, g' ω)) (τ : ℕ) (h1 : 1 ≤ τ) (h3 : 3 * τ ≤ F) :
    ∃ n v : Ω → ℝ,
      (∀ ω, (Z ω).diff.dt[τ - 1]? = some ((τ : ℝ) * P.stepSkip.val * P.timeStep.val / unit) ∧ (Z ω).diff.n[τ - 1]? = some (n ω) ∧
        (Z ω).diff.v[τ - 1]? = some (some (v ω)) ∧ (Z ω).nO[τ - 1]? = some (atoms.length * ((F : ℝ) / τ))) ∧
      MemLp n 2 μ ∧ Integrable v μ ∧
      2 / 3 * sideBySideVar (axesOf U.dimension) σ atoms.length F τ ≤ Var[n; μ] ∧ Var[n; μ] ≤ sideBySideVar (axesOf U.dimension) σ atoms.length F τ ∧
      (1 - 2 / (τ * ((F - τ + 1 : ℕ) : ℝ)) - 1 / (3 * atoms.length)) * sideBySideVar (axesOf U.dimension) σ atoms.length F τ ≤ ∫ ω, v ω ∂μ ∧
      ∫ ω, v ω ∂μ ≤ atoms.length * ((F - τ + 1 : ℕ) : ℝ) / (atoms.length * ((F - τ + 1 : ℕ) : ℝ) - 1) * (1 + 1 / (2 * ((F - τ + 1 : ℕ) : ℝ))) *
        sideBySideVar (axesOf U.dimension) σ atoms.length F τ ∧
      (1 - 2 / (τ * ((F - τ + 1 : ℕ) : ℝ)) - 1 / (3 * atoms.length)) * Var[n; μ] ≤ ∫ ω, v ω ∂μ ∧
      ∫ ω, v ω ∂μ ≤ 3 / 2 * (atoms.length * ((F - τ + 1 : ℕ) : ℝ) / (atoms.length * ((F - τ + 1 : ℕ) : ℝ) - 1) * (1 + 1 / (2 * ((F - τ + 1 : ℕ) : ℝ)))) * Var[n; μ] := by
  have hN1 : 1 ≤ atoms.length := List.length_pos_of_ne_nil hne
  set A := axesOf U.dimension with hA
  have all : ∀ ω, _ := fun ω => run_entry (fw := fw) hS hne hP hn (hstep ω) hsq hblock hsub (hbase ω) (hZ ω) h1 (show 2 * τ ≤ F by omega)
  choose a ha all using all
  obtain ⟨m1, m2⟩ := reportedMsd_var (F := F) h hs hnd hne hξ A h1
  obtain ⟨b1, b2⟩ := var_bounds A σ hN1 h1 h3
  obtain ⟨i1, i2⟩ := mean_varOn_win h hs hnd hne hξ A h1 (show τ ≤ F by omega) (Nat.mul_le_mul hN1 (by omega : 2 ≤ F - τ + 1) |> fun h => by simpa using h) a ha
  rw [← m2] at b1 b2
  have hN' : (1 : ℝ) ≤ atoms.length := by exact_mod_cast hN1
  have hT' : (1 : ℝ) ≤ τ := by exact_mod_cast h1
  have hWr : ((F - τ + 1 : ℕ) : ℝ) + τ - 1 = F := by
    push_cast [Nat.cast_sub (show τ ≤ F by omega)]
    ring
  have hW' : 2 * (τ : ℝ) + 1 ≤ ((F - τ + 1 : ℕ) : ℝ) := by exact_mod_cast (by omega : 2 * τ + 1 ≤ F - τ + 1)
  have hF0 : (0 : ℝ) < F := by exact_mod_cast (by omega : 0 < F)
  have hd3 : (A.card : ℝ) ≤ 3 := by exact_mod_cast (A.card_le_univ.trans (by simp))
  have eS : sideBySideVar A σ atoms.length F τ = (2 * A.card * σ ^ 4 * (τ : ℝ) ^ 2) / (atoms.length * ((F : ℝ) / τ)) := rfl
  have hno0 : (0 : ℝ) < atoms.length * ((F : ℝ) / τ) := by positivity
  obtain ⟨l1, l2⟩ := varOn_bounds (d := A.card) (B := σ ^ 4) (ρ := 1 / 3) (Nat.cast_nonneg _) hd3 (by positivity) hN' hT' hW' (variance_nonneg _ _) (by linarith) le_rfl (by
      rw [hWr]
      refine b2.trans (le_of_eq ?_)
      rw [eS]
      field_simp) i2
  rw [div_div] at l1
  set w := sideBySideVar A σ atoms.length F τ with hw
  have low : (1 - 2 / (τ * ((F - τ + 1 : ℕ) : ℝ)) - 1 / (3 * atoms.length)) * w ≤ ∫ ω, varOn (pairs (a ω)) (sqLen A (a ω)) / (atoms.length * ((F : ℝ) / τ)) ∂μ := by
    rw [integral_div, eS, ← mul_div_assoc]
    exact div_le_div_of_nonneg_right l1 hno0.le
  have up : ∫ ω, varOn (pairs (a ω)) (sqLen A (a ω)) / (atoms.length * ((F : ℝ) / τ)) ∂μ ≤
      atoms.length * ((F - τ + 1 : ℕ) : ℝ) / (atoms.length * ((F - τ + 1 : ℕ) : ℝ) - 1) * (1 + 1 / (2 * ((F - τ + 1 : ℕ) : ℝ))) * w := by
    rw [integral_div, eS]
    exact (div_le_div_of_nonneg_right l2 hno0.le).trans (le_of_eq (mul_div_assoc _ _ _))
  have hX0 : 0 ≤ 1 - 2 / (τ * ((F - τ + 1 : ℕ) : ℝ)) - 1 / (3 * (atoms.length : ℝ)) := by
    have x : 2 / (τ * ((F - τ + 1 : ℕ) : ℝ)) ≤ 2 / 3 := by
      rw [div_le_div_iff₀ (by nlinarith) (by norm_num)]
      nlinarith
    have y : 1 / (3 * (atoms.length : ℝ)) ≤ 1 / 3 := by
      rw [div_le_div_iff₀ (by linarith) (by norm_num)]
      linarith
    linarith
  have hNW : 3 ≤ (atoms.length : ℝ) * ((F - τ + 1 : ℕ) : ℝ) := by nlinarith
  have hC0 : 0 ≤ atoms.length * ((F - τ + 1 : ℕ) : ℝ) / (atoms.length * ((F - τ + 1 : ℕ) : ℝ) - 1) * (1 + 1 / (2 * ((F - τ + 1 : ℕ) : ℝ))) := by
    refine mul_nonneg (div_nonneg (by linarith) (by linarith)) (by positivity)
  refine ⟨fun ω => reportedMsd A L (u ω) fw atoms F τ, fun ω => varOn (pairs (a ω)) (sqLen A (a ω)) / (atoms.length * ((F : ℝ) / τ)),
    fun ω => ⟨(all ω).2.1, (all ω).1, (all ω).2.2.2, (all ω).2.2.1⟩, m1, i1.div_const _, b1, b2, low, up, (mul_le_mul_of_nonneg_left b2 hX0).trans low, up.trans ?_⟩
  have : w ≤ 3 / 2 * Var[fun ω => reportedMsd A L (u ω) fw atoms F τ; μ] := by linarith
  calc _ ≤ _ * (3 / 2 * Var[fun ω => reportedMsd A L (u ω) fw atoms F τ; μ]) := mul_le_mul_of_nonneg_left this hC0
    _ = _ := by ring

/-- One atom, `F = 2 τ`. -/
theorem half_bound {d B T V E : ℝ} (hd0 : 0 ≤ d) (hd : d ≤ 3) (hB : 0 ≤ B) (hT : 12 ≤ T)
    (hV : V = 2 * d * B * ((2 * (T + 1) * T * (2 * T ^ 2 + 1) - T ^ 2 * (T ^ 2 - 1)) / 6 - (2 * T - 1)) / (T + 1) ^ 2)
    (hE : T * E = 2 * d * B * ((T + 1) * T ^ 2 - (2 * T - 1)) + d ^ 2 * B * (1 - 1 / (T + 1)) - (T + 1) * V) : E / 2 ≤ 3 / 5 * V := by
  have hT0 : 0 < T := by linarith
  have hi : d ^ 2 * B * (1 - 1 / (T + 1)) ≤ 3 * (d * B) := by
    have : 0 ≤ 1 / (T + 1) := by positivity
    have : d ^ 2 * B * (1 - 1 / (T + 1)) ≤ d ^ 2 * B := mul_le_of_le_one_right (by positivity) (by linarith)
    nlinarith [mul_nonneg hd0 hB]
  have hdB : 0 ≤ d * B := mul_nonneg hd0 hB
  suffices h : 2 * d * B * ((T + 1) * T ^ 2 - (2 * T - 1)) + 3 * (d * B) ≤ (T + 1 + 6 / 5 * T) * V by
    have : T * E ≤ T * (6 / 5 * V) := by linarith
    have := le_of_mul_le_mul_left this hT0
    linarith
  obtain ⟨t, ht, rfl⟩ : ∃ t : ℝ, 0 ≤ t ∧ T = 12 + t := ⟨T - 12, by linarith, by ring⟩
  rw [hV, ← mul_div_assoc, le_div_iff₀ (by positivity)]
  have key : 0 ≤ (12 + t + 1 + 6 / 5 * (12 + t)) * (2 * ((2 * (12 + t + 1) * (12 + t) * (2 * (12 + t) ^ 2 + 1) - (12 + t) ^ 2 * ((12 + t) ^ 2 - 1)) / 6 - (2 * (12 + t) - 1))) -
      (2 * ((12 + t + 1) * (12 + t) ^ 2 - (2 * (12 + t) - 1)) + 3) * (12 + t + 1) ^ 2 := by
    ring_nf
    positivity
  have := mul_nonneg hdB key
  linarith

/-- **C157, a single atom.** The same walk of a single atom, and the longest interval that is reported, half of the frames, of at least 12: the reported variance is on
average at most 3/5 of the true one. -/
theorem C157_one_atom (μ : Measure Ω) [IsProbabilityMeasure μ] (E : Num ℝ) (P : Params ℝ) (S : Select ℝ) (sy : List String)
    (i : ℕ) (fw : List ℕ) (hS : Picks S sy [i] fw) (hP : DefaultGrid E P) (τ : ℕ) (h12 : 12 ≤ τ)
    (hn : ((2 * τ : ℕ) : ℤ) ≤ P.nSteps) (L : M3 ℝ) (V : ℝ) (u : Ω → ℕ → ℕ → V3 ℝ) (m : Ω → ℕ → ℕ → Fin 3 → ℤ)
    (hstep : ∀ ω, ∀ i < sy.length, ∀ j, j + 1 < 2 * τ → HalfCell fun k => u ω i (j + 1) k - u ω i j k)
    (ξ : ℕ × ℕ × Fin 3 → Ω → ℝ) (h : RandomWalk μ ξ) (σ : ℝ) (hσ : 0 < σ) (hs : NormalMoments μ ξ σ)
    (hξ : ∀ j l ω, walkStep L u fw i j l ω = ξ (i, j, l) ω)
    (sq : ℝ → ℝ) (hsq : IsSqrt sq) (o : Oracle ℝ G) (U : UncParams ℝ) (hblock : U.opt.block = false) (hsub : U.sub = 1) (hax : (axesOf U.dimension).Nonempty)
    (base : Ω → PyM (Base ℝ)) (unit : ℝ) (hbase : ∀ ω, ReadFrom E P S (2 * τ) sy L V (u ω) (m ω) (base ω) unit) (g g' : Ω → G)
    (Z : Ω → Analyzer ℝ) (hZ : ∀ ω, diffusionAnalyzer sq o (g ω) U (base ω) = .ok (Z ω, g' ω)) :
    ∃ n v : Ω → ℝ, (∀ ω, (Z ω).diff.n[τ - 1]? = some (n ω) ∧ (Z ω).diff.v[τ - 1]? = some (some (v ω))) ∧
      MemLp n 2 μ ∧ Integrable v μ ∧ ∫ ω, v ω ∂μ ≤ 3 / 5 * Var[n; μ] ∧ 0 < Var[n; μ] := by
  set A := axesOf U.dimension with hA
  have h1 : 1 ≤ τ := by omega
  have hξ' : ∀ a ∈ [i], ∀ j l ω, walkStep L u fw a j l ω = ξ (a, j, l) ω := by
    intro a ha j l ω
    rw [List.mem_singleton] at ha
    rw [ha]
    exact hξ j l ω
  have all : ∀ ω, _ := fun ω => run_entry (fw := fw) hS (by simp) hP hn (hstep ω) hsq hblock hsub (hbase ω) (hZ ω) h1 le_rfl
  choose a ha all using all
  obtain ⟨m1, m2⟩ := reportedMsd_var (F := 2 * τ) h hs (List.nodup_singleton i) (by simp) hξ' A h1
  obtain ⟨i1, i2⟩ := mean_varOn_win h hs (List.nodup_singleton i) (by simp) hξ' A h1 (show τ ≤ 2 * τ by omega) (show 2 ≤ 1 * (2 * τ - τ + 1) by omega) a ha
  have hT' : (12 : ℝ) ≤ τ := by exact_mod_cast h12
  have hd3 : (A.card : ℝ) ≤ 3 := by exact_mod_cast (A.card_le_univ.trans (by simp))
  have eW : ((2 * τ - τ + 1 : ℕ) : ℝ) = τ + 1 := by
    rw [show 2 * τ - τ + 1 = τ + 1 by omega]
    push_cast
    ring
  have eQ : windowSum τ (2 * τ - τ + 1) = (2 * (τ + 1) * τ * (2 * (τ : ℝ) ^ 2 + 1) - (τ : ℝ) ^ 2 * ((τ : ℝ) ^ 2 - 1)) / 6 - (2 * τ - 1) := by
    have := sharedSum_long (show τ ≤ 2 * τ - τ + 1 by omega)
    rw [eW] at this
    unfold windowSum
    linarith
  rw [eW, eQ] at m2
  rw [eW] at i2
  simp only [List.length_singleton, Nat.cast_one, one_mul, mul_one] at m2 i2
  have hb := half_bound (d := A.card) (B := σ ^ 4) (T := τ) (V := Var[fun ω => reportedMsd A L (u ω) fw [i] (2 * τ) τ; μ])
    (E := ∫ ω, varOn (pairs (a ω)) (sqLen A (a ω)) ∂μ) (Nat.cast_nonneg _) hd3 (by positivity) hT' m2 (by rw [← i2]; ring)
  refine ⟨fun ω => reportedMsd A L (u ω) fw [i] (2 * τ) τ, fun ω => varOn (pairs (a ω)) (sqLen A (a ω)) / (([i].length : ℕ) * (((2 * τ : ℕ) : ℝ) / τ)),
    fun ω => ⟨(all ω).1, (all ω).2.2.2⟩, m1, i1.div_const _, ?_, ?_⟩
  · have e : (([i].length : ℕ) : ℝ) * (((2 * τ : ℕ) : ℝ) / τ) = 2 := by
      have : (τ : ℝ) ≠ 0 := by linarith
      push_cast [List.length_singleton]
      field_simp
    simp only [e]
    rw [integral_div]
    exact hb
  · rw [m2]
    have hc : (0 : ℝ) < A.card := by exact_mod_cast Finset.card_pos.2 hax
    refine div_pos (mul_pos (by positivity) ?_) (by positivity)
    obtain ⟨t, ht, e⟩ : ∃ t : ℝ, 0 ≤ t ∧ (τ : ℝ) = 12 + t := ⟨τ - 12, by linarith, by ring⟩
    rw [e]
    ring_nf
    positivity

/-! ### Example: steps of 1/4, 0 and -1/4 with the moments of a normal distribution -/

/-- Three outcomes with the probabilities 1/6, 2/3 and 1/6. -/
noncomputable def exThree : Measure (Fin 3) :=
  (6⁻¹ : ENNReal) • (Measure.dirac 0 + (Measure.dirac 1 + (Measure.dirac 1 + (Measure.dirac 1 + (Measure.dirac 1 + Measure.dirac 2)))))

instance : IsProbabilityMeasure exThree := by
  constructor
  unfold exThree
  simp only [Measure.smul_apply, Measure.add_apply, measure_univ, smul_eq_mul]
  norm_num
  exact ENNReal.inv_mul_cancel (by norm_num) (by norm_num)

theorem exThree_integral (f : Fin 3 → ℝ) : ∫ b, f b ∂exThree = (f 0 + 4 * f 1 + f 2) / 6 := by
  have hi : ∀ a, Integrable f (Measure.dirac a) := fun a => integrable_dirac (by simp)
  unfold exThree
  rw [integral_smul_measure, integral_add_measure (hi _) ((hi _).add_measure ((hi _).add_measure ((hi _).add_measure ((hi _).add_measure (hi _))))),
    integral_add_measure (hi _) ((hi _).add_measure ((hi _).add_measure ((hi _).add_measure (hi _)))),
    integral_add_measure (hi _) ((hi _).add_measure ((hi _).add_measure (hi _))), integral_add_measure (hi _) ((hi _).add_measure (hi _)), integral_add_measure (hi _) (hi _)]
  simp only [integral_dirac, ENNReal.toReal_inv, ENNReal.toReal_ofNat, smul_eq_mul]
  ring

/-- The step that belongs to an outcome. -/
noncomputable def exLeap (b : Fin 3) : ℝ := if b = 0 then -1 / 4 else if b = 1 then 0 else 1 / 4

/-- One outcome per atom, frame and axis. -/
noncomputable abbrev exLeaps : Measure (ℕ × ℕ × Fin 3 → Fin 3) := Measure.infinitePi fun _ => exThree

theorem exLeaps_walk : RandomWalk exLeaps (fun q ω => exLeap (ω q)) ∧ NormalMoments exLeaps (fun q ω => exLeap (ω q)) (Real.sqrt (1 / 48)) := by
  have mp := fun i => measurePreserving_eval_infinitePi (fun _ : ℕ × ℕ × Fin 3 => exThree) i
  have int : ∀ i (f : Fin 3 → ℝ), ∫ ω, f (ω i) ∂exLeaps = ∫ x, f x ∂exThree := by
    intro i f
    have h := integral_map (μ := exLeaps) (mp i).measurable.aemeasurable (f := f) (Measurable.of_discrete).aestronglyMeasurable
    rw [(mp i).map_eq] at h
    exact h.symm
  refine ⟨⟨iIndepFun_infinitePi (X := fun _ => exLeap) fun i => Measurable.of_discrete, fun i => ?_, fun i => ?_, fun i => ?_⟩,
    fun i => ?_, fun i => ?_⟩
  · have : Measurable exLeap := Measurable.of_discrete
    exact this.comp (measurable_pi_apply i)
  · have : MemLp exLeap 4 exThree := MemLp.of_discrete
    exact this.comp_measurePreserving (mp i)
  · rw [int i exLeap, exThree_integral]
    norm_num [exLeap, show (2 : Fin 3) ≠ 0 by decide, show (2 : Fin 3) ≠ 1 by decide]
  · rw [int i fun b => exLeap b ^ 2, exThree_integral, Real.sq_sqrt (by norm_num)]
    norm_num [exLeap, show (2 : Fin 3) ≠ 0 by decide, show (2 : Fin 3) ≠ 1 by decide]
  · rw [int i fun b => exLeap b ^ 4, exThree_integral, show Real.sqrt (1 / 48) ^ 4 = (Real.sqrt (1 / 48) ^ 2) ^ 2 by ring, Real.sq_sqrt (by norm_num)]
    norm_num [exLeap, show (2 : Fin 3) ≠ 0 by decide, show (2 : Fin 3) ≠ 1 by decide]

/-- Atom 0 hops, atom 1 rests. -/
noncomputable def exLeaping (ω : ℕ × ℕ × Fin 3 → Fin 3) (i j : ℕ) : V3 ℝ := fun k =>
  if i = 0 then ∑ s ∈ Finset.range j, exLeap (ω (0, s, k)) else 0

theorem exLeaping_step (i j : ℕ) (l : Fin 3) (ω : ℕ × ℕ × Fin 3 → Fin 3) (hi : i ∈ [0]) :
    walkStep exCube exLeaping [1] i j l ω = exLeap (ω (i, j, l)) := by
  rw [List.mem_singleton] at hi
  subst hi
  have hc : ∀ s : V3 ℝ, cart exCube s l = s l := by
    intro s
    unfold cart exCube
    simp
  simp only [walkStep, trueMove, meanOver, hc, exLeaping]
  simp [Finset.sum_range_succ]

theorem exLeaping_half (ω : ℕ × ℕ × Fin 3 → Fin 3) (i j : ℕ) : HalfCell fun k => exLeaping ω i (j + 1) k - exLeaping ω i j k := by
  intro k
  simp only [exLeaping]
  by_cases hi : i = 0
  · rw [if_pos hi, if_pos hi, Finset.sum_range_succ, add_sub_cancel_left]
    unfold exLeap
    split_ifs <;> norm_num
  · simp [hi]

theorem exLeaping_ok (ω : ℕ × ℕ × Fin 3 → Fin 3) (F : ℕ) (hF : 2 ≤ F) : ∃ Z, diffusionAnalyzer Real.sqrt (exOracle ℝ) () exUncR
    (fromAse exNumR (exParamsF F) exSelectR 1 none (.one (wrapped F ["Li", "O"] exCube 1 (exLeaping ω) fun _ _ _ => 0))) = .ok (Z, ()) := by
  obtain ⟨n, rfl⟩ : ∃ n, F = n + 1 := ⟨F - 1, by omega⟩
  have hw : wrapped (n + 1) ["Li", "O"] exCube 1 (exLeaping ω) (fun _ _ _ => 0) =
      ⟨["Li", "O"], (List.range 2).map fun i => fun k => exLeaping ω i 0 k + (((0 : ℤ)) : ℝ), exCube, 1⟩ ::
        (List.range n).map fun j => ⟨["Li", "O"], (List.range 2).map fun i => fun k => exLeaping ω i (j + 1) k + (((0 : ℤ)) : ℝ), exCube, 1⟩ := by
    unfold wrapped
    rw [List.range_succ_eq_map, List.map_cons, List.map_map]
    rfl
  rw [hw]
  suffices h : AllAnalyzed (chosen ["Li", "O"] ["Li"]).length Real.sqrt (exOracle ℝ) () exUncR _ by
    obtain ⟨⟨Z, _, h, -⟩, -⟩ := h
    exact ⟨Z, h⟩
  refine C79_ase exNumR (exParamsF (n + 1)) exSelectR ["Li"] rfl rfl ?_ ?_ 2 _ _ ?_ ?_ ?_ Real.sqrt (exOracle ℝ) () exUncR (.off rfl rfl) le_rfl
    (by decide +kernel)
  · refine ⟨rfl, ?_, rfl, rfl, rfl, rfl⟩
    simp [exParamsF, PyNum.val]
  · show (1 : ℤ) ≤ ((n + 1 : ℕ) : ℤ)
    omega
  · simp; omega
  · rw [← hw]
    intro f hf
    have hn : NonSingular exCube := by
      unfold NonSingular exCube
      rw [show (Matrix.of fun a b : Fin 3 => if a = b then (1 : ℝ) else 0) = 1 from rfl, Matrix.det_one]
      exact one_ne_zero
    obtain ⟨j, -, rfl⟩ := List.mem_map.mp hf
    exact ⟨rfl, by simp, hn, "Li", by simp, by simp⟩
  · rw [List.length_map, List.length_range]
    show ((3 * 2 * (n + 1) * (n + 1) * 8 : ℕ) : ℝ) ≤ ((3 * 2 * (n + 1) * (n + 1) * 8 : ℕ) : ℝ) * 10 ^ 9
    exact le_mul_of_one_le_right (Nat.cast_nonneg _) (by norm_num)

/-- One atom, 1000 frames, an interval of 2 frames: the reported variance is on average between 0.66 and 1.51 of the true variance of the reported MSD. -/
example : ∃ Z : (ℕ × ℕ × Fin 3 → Fin 3) → Analyzer ℝ,
    (∀ ω, diffusionAnalyzer Real.sqrt (exOracle ℝ) () exUncR (fromAse exNumR (exParamsF 1000) exSelectR 1 none
      (.one (wrapped 1000 ["Li", "O"] exCube 1 (exLeaping ω) fun _ _ _ => 0))) = .ok (Z ω, ())) ∧
    ∃ n v : (ℕ × ℕ × Fin 3 → Fin 3) → ℝ, (∀ ω, (Z ω).diff.n[1]? = some (n ω) ∧ (Z ω).diff.v[1]? = some (some (v ω)) ∧ (Z ω).nO[1]? = some 500) ∧
      1 / 72000 ≤ Var[n; exLeaps] ∧ 66 / 100 * Var[n; exLeaps] ≤ ∫ ω, v ω ∂exLeaps ∧ ∫ ω, v ω ∂exLeaps ≤ 151 / 100 * Var[n; exLeaps] := by
  choose Z hZ using fun ω => exLeaping_ok ω 1000 (by omega)
  have hax : (axesOf exUncR.dimension).card = 3 := by decide +kernel
  have hg : DefaultGrid exNumR (exParamsF 1000) := by
    refine ⟨rfl, ?_, rfl, rfl, rfl, rfl⟩
    simp [exParamsF, PyNum.val]
  obtain ⟨n, v, c1, -, -, c2, -, -, -, c3, c4⟩ := C157_error_bars exLeaps exNumR (exParamsF 1000) exSelectR ["Li", "O"] [0] [1] (.species ["Li"] rfl rfl) (by simp) (by simp) hg 1000
      (le_refl _) exCube 1 exLeaping (fun _ _ _ _ => 0) (fun ω i _ j _ => exLeaping_half ω i j) _ exLeaps_walk.1 (Real.sqrt (1 / 48))
      exLeaps_walk.2 (fun i hi j l ω => exLeaping_step i j l ω hi) Real.sqrt (fun x hx => ⟨Real.sqrt_nonneg x, Real.sq_sqrt hx⟩) (exOracle ℝ) exUncR rfl rfl _ 1 (fun ω => Or.inl ⟨rfl, rfl⟩)
      (fun _ => ()) (fun _ => ()) Z (fun ω => hZ ω) 2 (by norm_num) (by norm_num)
  have e4 : Real.sqrt (1 / 48) ^ 4 = 1 / 2304 := by
    rw [show Real.sqrt (1 / 48) ^ 4 = (Real.sqrt (1 / 48) ^ 2) ^ 2 by ring, Real.sq_sqrt (by norm_num)]
    norm_num
  unfold sideBySideVar at c2
  rw [hax, e4] at c2
  have hv : 0 ≤ Var[n; exLeaps] := variance_nonneg _ _
  refine ⟨Z, hZ, n, v, fun ω => ⟨(c1 ω).2.1, (c1 ω).2.2.1, ?_⟩, ?_, ?_, ?_⟩
  · have := (c1 ω).2.2.2
    norm_num at this ⊢
    exact this
  · norm_num at c2
    linarith
  · norm_num at c3
    nlinarith
  · norm_num at c4
    nlinarith

/-- One atom, 24 frames, the interval of 12 frames. -/
example : ∃ Z : (ℕ × ℕ × Fin 3 → Fin 3) → Analyzer ℝ,
    (∀ ω, diffusionAnalyzer Real.sqrt (exOracle ℝ) () exUncR (fromAse exNumR (exParamsF 24) exSelectR 1 none
      (.one (wrapped 24 ["Li", "O"] exCube 1 (exLeaping ω) fun _ _ _ => 0))) = .ok (Z ω, ())) ∧
    ∃ n v : (ℕ × ℕ × Fin 3 → Fin 3) → ℝ, (∀ ω, (Z ω).diff.n[11]? = some (n ω) ∧ (Z ω).diff.v[11]? = some (some (v ω))) ∧
      ∫ ω, v ω ∂exLeaps ≤ 3 / 5 * Var[n; exLeaps] ∧ 0 < Var[n; exLeaps] := by
  choose Z hZ using fun ω => exLeaping_ok ω 24 (by omega)
  have hax : (axesOf exUncR.dimension).card = 3 := by decide +kernel
  have hg : DefaultGrid exNumR (exParamsF 24) := by
    refine ⟨rfl, ?_, rfl, rfl, rfl, rfl⟩
    simp [exParamsF, PyNum.val]
  obtain ⟨n, v, c1, -, -, c2, c3⟩ := C157_one_atom exLeaps exNumR (exParamsF 24) exSelectR ["Li", "O"] 0 [1] (.species ["Li"] rfl rfl) hg 12 le_rfl
      (le_refl _) exCube 1 exLeaping (fun _ _ _ _ => 0) (fun ω i _ j _ => exLeaping_half ω i j) _ exLeaps_walk.1 (Real.sqrt (1 / 48)) (Real.sqrt_pos.2 (by norm_num))
      exLeaps_walk.2 (fun j l ω => exLeaping_step 0 j l ω (by simp)) Real.sqrt (fun x hx => ⟨Real.sqrt_nonneg x, Real.sq_sqrt hx⟩) (exOracle ℝ) exUncR rfl rfl
      (Finset.card_pos.1 (by rw [hax]; norm_num)) _ 1 (fun ω => Or.inl ⟨rfl, rfl⟩) (fun _ => ()) (fun _ => ()) Z (fun ω => hZ ω)
  exact ⟨Z, hZ, n, v, c1, c2, c3⟩

end Kinisi
