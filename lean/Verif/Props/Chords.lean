import Verif.Spec.Chords
import Verif.Props.ModelFit
import Verif.Props.CurveErrors
import Mathlib.Tactic.LinearCombination

/-!
# C147: what the intercept of a fit is made of
-/

set_option linter.unusedSectionVars false
set_option linter.unusedVariables false

namespace Kinisi
open Spec
variable {K : Type} [Field K] [LinearOrder K] [IsStrictOrderedRing K] [FloorRing K] {G : Type}

/-- The times and the values of `b` from position `r` on. -/
def timesFrom (b : Boot K) (r : ℕ) : ℕ → K := fun i => b.dt.getD (r + i) 0
def valuesFrom (b : Boot K) (r : ℕ) : ℕ → K := fun i => b.n.getD (r + i) 0

theorem weightedMean_mul {w x : ℕ → K} {m : ℕ} (hw : ∀ k < m, 0 < w k) (hm : 0 < m) :
    ∑ k ∈ Finset.range m, w k * (x k - weightedMean w x m) = 0 := by
  have hS : 0 < ∑ k ∈ Finset.range m, w k := Finset.sum_pos (fun k hk => hw k (Finset.mem_range.1 hk)) ⟨0, Finset.mem_range.2 hm⟩
  simp only [mul_sub, Finset.sum_sub_distrib]
  rw [← Finset.sum_mul]
  unfold weightedMean
  rw [mul_div_cancel₀ _ hS.ne', sub_self]

/-- A weighted mean of numbers within `B` of `x₀` is within `B` of `x₀`. -/
theorem weightedMean_near {w x : ℕ → K} {m : ℕ} (hw : ∀ k < m, 0 < w k) (hm : 0 < m) {x₀ B : K} (hB : ∀ k < m, |x k - x₀| ≤ B) : |weightedMean w x m - x₀| ≤ B := by
  have hS : 0 < ∑ k ∈ Finset.range m, w k := Finset.sum_pos (fun k hk => hw k (Finset.mem_range.1 hk)) ⟨0, Finset.mem_range.2 hm⟩
  have e : weightedMean w x m - x₀ = (∑ k ∈ Finset.range m, w k * (x k - x₀)) / ∑ k ∈ Finset.range m, w k := by
    rw [eq_div_iff hS.ne', sub_mul]
    unfold weightedMean
    rw [div_mul_cancel₀ _ hS.ne']
    simp only [mul_sub, Finset.sum_sub_distrib, ← Finset.sum_mul]
    ring
  rw [e, abs_div, abs_of_pos hS, div_le_iff₀ hS, Finset.mul_sum]
  refine (Finset.abs_sum_le_sum_abs _ _).trans (Finset.sum_le_sum fun k hk => ?_)
  have hk' := Finset.mem_range.1 hk
  rw [abs_mul, abs_of_pos (hw k hk'), mul_comm]
  exact mul_le_mul_of_nonneg_right (hB k hk') (hw k hk').le

/-- The best line for values with times that ascend and numbers of observations inversely proportional to them. -/
theorem chords_line {m : ℕ} (hm : 0 < m) (v n t y : ℕ → K) (hn : ∀ i < m + 1, 0 < n i) (extra : List K) (A P : Matrix (Fin (m + 1)) (Fin (m + 1)) K)
    (hA : populateCovariance (List.ofFn fun i : Fin (m + 1) => some (v i)) ((List.ofFn fun i : Fin (m + 1) => n i) ++ extra) = .ok (rowsOf A)) (hP : A * P = 1)
    (logdet κ : K) (hκ : ∀ i < m + 1, n i * t i = κ) (ht : ∀ i < m + 1, 0 < t i) (hasc : ∀ k < m, t k < t (k + 1)) (hv : 0 < v 0) (hw : ∀ k < m, v k * n k ^ 2 < v (k + 1) * n (k + 1) ^ 2)
    (w : ℕ → K) (s : K) (hs : s ≠ 0) (hws : ∀ k < m, w k * s = (n (k + 1) - n k) ^ 2 / (v (k + 1) * n (k + 1) ^ 2 - v k * n k ^ 2)) (hwp : ∀ k < m, 0 < w k)
    {g c best : K} (hb : BestLine (logLikelihood logdet P (fun i => t i) (fun i => y i)) g c best) :
    g = max 0 ((y 0 - weightedMean w (chordIntercept t y) m) / t 0) ∧ (weightedMean w (chordIntercept t y) m ≤ y 0 → c = weightedMean w (chordIntercept t y) m) := by
  have hκ0 : 0 < κ := by rw [← hκ 0 (by omega)]; exact mul_pos (hn 0 (by omega)) (ht 0 (by omega))
  have hni : ∀ i < m + 1, n i = κ / t i := fun i hi => by rw [← hκ i hi, mul_div_cancel_right₀ _ (ht i hi).ne']
  have hne : ∃ k < m, n (k + 1) ≠ n k := by
    refine ⟨0, hm, fun e => ?_⟩
    rw [hni _ (by omega), hni _ (by omega)] at e
    have h1 := ht 0 (by omega)
    have h2 := ht (0 + 1) (by omega)
    rw [div_eq_div_iff h2.ne' h1.ne'] at e
    exact (hasc 0 hm).ne (mul_left_cancel₀ hκ0.ne' e)
  set μ := weightedMean w (chordIntercept t y) m with hμ
  have hN : ∑ k ∈ Finset.range m, jump n (k + 1) * (jump (fun i => n i * y i) (k + 1) - μ * jump n (k + 1)) / jump (fun i => v i * n i ^ 2) (k + 1) = 0 := by
    have : ∑ k ∈ Finset.range m, jump n (k + 1) * (jump (fun i => n i * y i) (k + 1) - μ * jump n (k + 1)) / jump (fun i => v i * n i ^ 2) (k + 1) =
        s * ∑ k ∈ Finset.range m, w k * (chordIntercept t y k - μ) := by
      rw [Finset.mul_sum]
      refine Finset.sum_congr rfl fun k hk => ?_
      have hk' := Finset.mem_range.1 hk
      have h1 := ht k (by omega)
      have h2 := ht (k + 1) (by omega)
      have h3 : t (k + 1) - t k ≠ 0 := (sub_pos.2 (hasc k hk')).ne'
      have h4 := hws k hk'
      have e1 : jump (fun i => n i * y i) (k + 1) = chordIntercept t y k * jump n (k + 1) := by
        show n (k + 1) * y (k + 1) - n k * y k = (t (k + 1) * y k - t k * y (k + 1)) / (t (k + 1) - t k) * (n (k + 1) - n k)
        rw [hni k (by omega), hni (k + 1) (by omega)]
        field_simp
        ring
      rw [e1]
      have e2 : s * (w k * (chordIntercept t y k - μ)) = (w k * s) * (chordIntercept t y k - μ) := by ring
      rw [e2, h4]
      show (n (k + 1) - n k) * (chordIntercept t y k * (n (k + 1) - n k) - μ * (n (k + 1) - n k)) / (v (k + 1) * n (k + 1) ^ 2 - v k * n k ^ 2) = _
      ring
    rw [this, weightedMean_mul hwp hm, mul_zero]
  refine ⟨best_line_clipped v n t y hn extra A P hA hP logdet κ hκ (ht 0 (by omega)) hv hw hne μ hN hb, fun hc => ?_⟩
  exact ((C134_intercept v n t y hn extra A P hA hP logdet κ hκ (ht 0 (by omega)) hv hw μ hc hN).2 hne g c best hb).2

/-- The model fit as sequences. -/
theorem model_sequences {b : Boot K} {r m : ℕ} {g c : K} (hI : InverseCounts b) (hal : Aligned b) (hm : m + 1 = b.n.length - r) (h : ModelFit b r g c) :
    ∃ (a κ : K) (n : ℕ → K) (A P : Matrix (Fin (m + 1)) (Fin (m + 1)) K) (ld best : K), 0 < a ∧ 0 < κ ∧ (∀ i < m + 1, 0 < n i ∧ n i * timesFrom b r i = κ ∧ 0 < timesFrom b r i) ∧
      (∀ k < m, timesFrom b r k < timesFrom b r (k + 1)) ∧
      populateCovariance (List.ofFn fun i : Fin (m + 1) => some (a / n i * timesFrom b r i ^ 2)) ((List.ofFn fun i : Fin (m + 1) => n i) ++ []) = .ok (rowsOf A) ∧ A * P = 1 ∧
      BestLine (logLikelihood ld P (fun i : Fin (m + 1) => timesFrom b r i) (fun i => valuesFrom b r i)) g c best := by
  obtain ⟨⟨κ, hκ⟩, ht, hn⟩ := hI
  obtain ⟨l1, l2, l3⟩ := hal
  obtain ⟨m', P, ld, best, hm', ⟨a, v, A, ha, hv, hA, hAP⟩, hB⟩ := h
  obtain rfl : m' = m + 1 := by omega
  have gt : ∀ i < m + 1, b.dt[r + i]? = some (timesFrom b r i) := fun i hi => by
    rw [timesFrom, List.getD_eq_getElem?_getD, List.getElem?_eq_getElem (by omega)]; rfl
  have gn : ∀ i < m + 1, b.nO[r + i]? = some (b.nO.getD (r + i) 0) := fun i hi => by
    rw [List.getD_eq_getElem?_getD, List.getElem?_eq_getElem (by omega)]; rfl
  set T : Fin (m + 1) → K := fun i => timesFrom b r i with hT
  set N : Fin (m + 1) → K := fun i => b.nO.getD (r + i) 0 with hN
  have e1 : b.dt.drop r = List.ofFn T := by
    apply List.ext_getElem
    · simp; omega
    · intro i h1 h2
      have : i < m + 1 := by simpa using h2
      have := gt i this
      rw [List.getElem?_eq_getElem (by rw [List.length_drop] at h1; omega)] at this
      rw [List.getElem_drop, List.getElem_ofFn, Option.some.inj this]
  have e2 : b.nO.drop r = List.ofFn N := by
    apply List.ext_getElem
    · simp; omega
    · intro i h1 h2
      have : i < m + 1 := by simpa using h2
      have := gn i this
      rw [List.getElem?_eq_getElem (by rw [List.length_drop] at h1; omega)] at this
      rw [List.getElem_drop, List.getElem_ofFn, Option.some.inj this]
  have hNp : ∀ i < m + 1, 0 < b.nO.getD (r + i) 0 := fun i hi => hn _ (List.mem_of_getElem? (gn i hi))
  have hTp : ∀ i < m + 1, 0 < timesFrom b r i := fun i hi => ht _ (List.mem_of_getElem? (gt i hi))
  have hc : ∀ i < m + 1, b.nO.getD (r + i) 0 * timesFrom b r i = κ := fun i hi => hκ _ _ _ (gt i hi) (gn i hi)
  have hκp : 0 < κ := by rw [← hc 0 (by omega)]; exact mul_pos (hNp 0 (by omega)) (hTp 0 (by omega))
  have hst : ∀ i j, i < j → j < m + 1 → timesFrom b r i < timesFrom b r j := by
    intro i j hij hj
    have := List.pairwise_iff_getElem.1 l3 (r + i) (r + j) (by omega) (by omega) (by omega)
    have h1 := gt i (by omega)
    have h2 := gt j hj
    rw [List.getElem?_eq_getElem (by omega)] at h1 h2
    rw [Option.some.inj h1, Option.some.inj h2] at this
    exact this
  obtain ⟨f1, -⟩ := model_cov N T a κ (fun i => hNp i i.isLt) (fun i => hc i i.isLt) hκp.le ha.le (fun i j hij => by
    rcases hij.lt_or_eq with h | rfl
    · exact (hst i j h j.isLt).le
    · exact le_refl _)
  rw [e1, e2, f1] at hv
  obtain rfl := Except.ok.inj hv
  rw [e2] at hA
  refine ⟨a, κ, fun i => b.nO.getD (r + i) 0, A, P, ld, best, ha, hκp, fun i hi => ⟨hNp i hi, hc i hi, hTp i hi⟩, fun k hk => hst k (k + 1) (by omega) (by omega), ?_, hAP, ?_⟩
  · rw [List.append_nil]
    exact hA
  · have e3 : fitLL b r ld P = logLikelihood ld P (fun i : Fin (m + 1) => timesFrom b r i) (fun i => valuesFrom b r i) := by
      unfold fitLL
      congr 1
      · funext i; simp [timesFrom, List.getD_eq_getElem?_getD, List.getElem?_drop]
      · funext i; simp [valuesFrom, List.getD_eq_getElem?_getD, List.getElem?_drop]
    rw [← e3]
    exact hB

/-- **C147, random walk model.** The best line with `model=True` goes through the first fitted point, and its intercept is the weighted mean of the intercepts of the lines through neighbouring points, with weights that depend
on the times only: the squared change of `1/t` per time.  (If this intercept is above the first value, the gradient is zero.) -/
theorem C147_model (b : Boot K) (hb : InverseCounts b ∧ Aligned b) (r m : ℕ) (hm : m + 1 = b.n.length - r) (hm0 : 0 < m) (g c : K) (h : ModelFit b r g c) :
    g = max 0 ((valuesFrom b r 0 - weightedMean (chordWeight (timesFrom b r)) (chordIntercept (timesFrom b r) (valuesFrom b r)) m) / timesFrom b r 0) ∧
      (0 < g → c = weightedMean (chordWeight (timesFrom b r)) (chordIntercept (timesFrom b r) (valuesFrom b r)) m ∧ g * timesFrom b r 0 + c = valuesFrom b r 0) := by
  obtain ⟨a, κ, n, A, P, ld, best, ha, hκ, hn, hasc, hA, hAP, hB⟩ := model_sequences hb.1 hb.2 hm h
  have hinc : ∀ k < m + 1, a / n k * timesFrom b r k ^ 2 * n k ^ 2 = a * κ * timesFrom b r k := by
    intro k hk
    obtain ⟨h1, h2, h3⟩ := hn k hk
    rw [← h2]
    field_simp
  obtain ⟨q1, q2⟩ := chords_line hm0 (fun i => a / n i * timesFrom b r i ^ 2) n (timesFrom b r) (valuesFrom b r) (fun i hi => (hn i hi).1) [] A P hA hAP ld κ (fun i hi => (hn i hi).2.1)
    (fun i hi => (hn i hi).2.2) hasc (by obtain ⟨h1, h2, h3⟩ := hn 0 (by omega); positivity)
    (fun k hk => by rw [hinc k (by omega), hinc (k + 1) (by omega)]; exact mul_lt_mul_of_pos_left (hasc k hk) (mul_pos ha hκ)) (chordWeight (timesFrom b r)) (κ / a) (div_pos hκ ha).ne'
    (fun k hk => by
      obtain ⟨h1, h2, h3⟩ := hn k (by omega)
      obtain ⟨h4, h5, h6⟩ := hn (k + 1) (by omega)
      have h7 : timesFrom b r (k + 1) - timesFrom b r k ≠ 0 := (sub_pos.2 (hasc k hk)).ne'
      rw [hinc k (by omega), hinc (k + 1) (by omega), show n k = κ / timesFrom b r k from by rw [← h2]; field_simp, show n (k + 1) = κ / timesFrom b r (k + 1) from by rw [← h5]; field_simp]
      unfold chordWeight
      rw [← mul_sub]
      field_simp
      ring)
    (fun k hk => by
      obtain ⟨h1, h2, h3⟩ := hn k (by omega)
      obtain ⟨h4, h5, h6⟩ := hn (k + 1) (by omega)
      have h7 := hasc k hk
      have h8 : 1 / timesFrom b r (k + 1) < 1 / timesFrom b r k := one_div_lt_one_div_of_lt h3 h7
      unfold chordWeight
      exact div_pos (pow_pos (sub_pos.2 h8) 2) (sub_pos.2 h7)) hB
  have ht := (hn 0 (by omega)).2.2
  refine ⟨q1, fun hg => ?_⟩
  have hle : weightedMean (chordWeight (timesFrom b r)) (chordIntercept (timesFrom b r) (valuesFrom b r)) m ≤ valuesFrom b r 0 := by
    by_contra hc
    rw [q1, max_eq_left (div_nonpos_of_nonpos_of_nonneg (by linarith) ht.le)] at hg
    exact lt_irrefl _ hg
  refine ⟨q2 hle, ?_⟩
  rw [q1, q2 hle, max_eq_right (div_nonneg (sub_nonneg.2 hle) ht.le), div_mul_cancel₀ _ ht.ne']
  ring

/-- **C147, measured variances.** Also with measured variances the best line goes through the first fitted point, and its intercept is a weighted mean of the intercepts of the lines through neighbouring points, with positive weights:
it lies between the lowest and the highest of these intercepts, whatever the variances are. -/
theorem C147_measured (b : Boot K) (hb : InverseCounts b ∧ Aligned b) (r m : ℕ) (hm : m + 1 = b.n.length - r) (hm0 : 0 < m) (g c : K) (h : FittedLine b r g c) :
    (∃ w : ℕ → K, (∀ k < m, 0 < w k) ∧ g = max 0 ((valuesFrom b r 0 - weightedMean w (chordIntercept (timesFrom b r) (valuesFrom b r)) m) / timesFrom b r 0) ∧
      (0 < g → c = weightedMean w (chordIntercept (timesFrom b r) (valuesFrom b r)) m)) ∧
    (0 < g → g * timesFrom b r 0 + c = valuesFrom b r 0 ∧ ∀ lo hi, (∀ k < m, lo ≤ chordIntercept (timesFrom b r) (valuesFrom b r) k ∧ chordIntercept (timesFrom b r) (valuesFrom b r) k ≤ hi) → lo ≤ c ∧ c ≤ hi) := by
  obtain ⟨⟨⟨κ, hκ⟩, ht, hn⟩, l1, l2, l3⟩ := hb
  obtain ⟨v, m', W, ld, best, hl, hm', hW, hv, hN, hinc, -, hB⟩ := h
  obtain rfl : m' = m := by omega
  obtain ⟨A, hAP, vf, n, extra, hA, hf⟩ := fit_sequences (b := { b with v := v }) hW hm hl hv hN
  have gt : ∀ i < m' + 1, b.dt[r + i]? = some (timesFrom b r i) := fun i hi => by
    rw [timesFrom, List.getD_eq_getElem?_getD, List.getElem?_eq_getElem (by omega)]; rfl
  have hTp : ∀ i < m' + 1, 0 < timesFrom b r i := fun i hi => ht _ (List.mem_of_getElem? (gt i hi))
  have hst : ∀ k < m', timesFrom b r k < timesFrom b r (k + 1) := by
    intro k hk
    have := List.pairwise_iff_getElem.1 l3 (r + k) (r + (k + 1)) (by omega) (by omega) (by omega)
    have h1 := gt k (by omega)
    have h2 := gt (k + 1) (by omega)
    rw [List.getElem?_eq_getElem (by omega)] at h1 h2
    rw [Option.some.inj h1, Option.some.inj h2] at this
    exact this
  have hκi : ∀ i < m' + 1, n i * timesFrom b r i = κ := fun i hi => hκ _ _ _ (gt i hi) (hf i hi).2.2.1
  have hw : ∀ k < m', vf k * n k ^ 2 < vf (k + 1) * n (k + 1) ^ 2 := fun k hk =>
    hinc (r + k) _ _ _ _ (by omega) (hf k (by omega)).1 (hf (k + 1) (by omega)).1 (hf k (by omega)).2.2.1 (hf (k + 1) (by omega)).2.2.1
  set w : ℕ → K := fun k => (n (k + 1) - n k) ^ 2 / (vf (k + 1) * n (k + 1) ^ 2 - vf k * n k ^ 2) with hwd
  have hwp : ∀ k < m', 0 < w k := by
    intro k hk
    refine div_pos ?_ (sub_pos.2 (hw k hk))
    have h1 := hκi k (by omega)
    have h2 := hκi (k + 1) (by omega)
    have h3 : n (k + 1) - n k ≠ 0 := by
      intro e
      rw [sub_eq_zero.1 e, ← h1] at h2
      exact (hst k hk).ne' (mul_left_cancel₀ (hf k (by omega)).2.2.2.ne' h2)
    positivity
  have e3 : fitLL b r ld W = logLikelihood ld W (fun i : Fin (m' + 1) => timesFrom b r i) (fun i => valuesFrom b r i) := by
    unfold fitLL
    congr 1
    · funext i; simp [timesFrom, List.getD_eq_getElem?_getD, List.getElem?_drop]
    · funext i; simp [valuesFrom, List.getD_eq_getElem?_getD, List.getElem?_drop]
  rw [e3] at hB
  obtain ⟨q1, q2⟩ := chords_line hm0 vf n (timesFrom b r) (valuesFrom b r) (fun i hi => (hf i hi).2.2.2) extra A W hA hAP ld κ hκi hTp hst (hf 0 (by omega)).2.1 hw w 1 one_ne_zero
    (fun k hk => by rw [mul_one]) hwp hB
  have ht0 := hTp 0 (by omega)
  have hle : 0 < g → weightedMean w (chordIntercept (timesFrom b r) (valuesFrom b r)) m' ≤ valuesFrom b r 0 := by
    intro hg
    by_contra hc
    rw [q1, max_eq_left (div_nonpos_of_nonpos_of_nonneg (by linarith) ht0.le)] at hg
    exact lt_irrefl _ hg
  refine ⟨⟨w, hwp, q1, fun hg => q2 (hle hg)⟩, fun hg => ⟨?_, fun lo hi hlh => ?_⟩⟩
  · rw [q1, q2 (hle hg), max_eq_right (div_nonneg (sub_nonneg.2 (hle hg)) ht0.le), div_mul_cancel₀ _ ht0.ne']
    ring
  · have := weightedMean_near hwp hm0 (x := chordIntercept (timesFrom b r) (valuesFrom b r)) (x₀ := (lo + hi) / 2) (B := (hi - lo) / 2) fun k hk => by
      obtain ⟨h1, h2⟩ := hlh k hk
      rw [abs_le]
      constructor <;> linarith
    rw [← q2 (hle hg), abs_le] at this
    constructor <;> linarith

theorem max_near {x y B : K} (h : |x - y| ≤ B) : |max 0 x - max 0 y| ≤ B := by
  rw [max_comm 0 x, max_comm 0 y]
  exact (abs_max_sub_max_le_abs x y 0).trans h

/-- **C147, errors.** Two curves over the same times that differ by at most `R` have gradients with the random walk model that differ by at most `(1 + q) R / t₀`, where `t₀` is the first fitted time and `q` bounds
`(t + t') / (t' - t)` for neighbouring times. -/
theorem C147_errors (b b' : Boot K) (hb : InverseCounts b ∧ Aligned b) (hb' : InverseCounts b' ∧ Aligned b') (hdt : b'.dt = b.dt) (r : ℕ) (hr : r + 2 ≤ b.n.length) (R q : K)
    (hR : ∀ i, r ≤ i → i < b.n.length → |b'.n.getD i 0 - b.n.getD i 0| ≤ R) (hq : ∀ i, r ≤ i → i + 1 < b.n.length → b.dt.getD i 0 + b.dt.getD (i + 1) 0 ≤ q * (b.dt.getD (i + 1) 0 - b.dt.getD i 0))
    (g c g' c' : K) (h : ModelFit b r g c) (h' : ModelFit b' r g' c') : |g' - g| ≤ (1 + q) * R / b.dt.getD r 0 := by
  obtain ⟨m, hm⟩ : ∃ m, m + 1 = b.n.length - r := ⟨b.n.length - r - 1, by omega⟩
  have hl : b'.n.length = b.n.length := by rw [← hb'.2.1, hdt, hb.2.1]
  have hm' : m + 1 = b'.n.length - r := by rw [hl]; exact hm
  obtain ⟨e, -⟩ := C147_model b hb r m hm (by omega) g c h
  obtain ⟨e', -⟩ := C147_model b' hb' r m hm' (by omega) g' c' h'
  obtain ⟨a₀, κ₀, n, A₀, P₀, ld₀, best₀, -, -, hn, hasc, -⟩ := model_sequences hb.1 hb.2 hm h
  have hT : timesFrom b' r = timesFrom b r := by unfold timesFrom; rw [hdt]
  rw [hT] at e'
  have ht0 := (hn 0 (by omega)).2.2
  have hR0 : 0 ≤ R := (abs_nonneg _).trans (hR r le_rfl (by omega))
  have hwp : ∀ k < m, 0 < chordWeight (timesFrom b r) k := fun k hk => by
    have h3 := (hn k (by omega)).2.2
    exact div_pos (pow_pos (sub_pos.2 (one_div_lt_one_div_of_lt h3 (hasc k hk))) 2) (sub_pos.2 (hasc k hk))
  set χ := chordIntercept (timesFrom b r) (valuesFrom b r) with hχ
  set χ' := chordIntercept (timesFrom b r) (valuesFrom b' r) with hχ'
  have hclose : ∀ k < m, |χ' k - χ k| ≤ q * R := by
    intro k hk
    have h1 := (hn k (by omega)).2.2
    have h2 := (hn (k + 1) (by omega)).2.2
    have h3 : 0 < timesFrom b r (k + 1) - timesFrom b r k := sub_pos.2 (hasc k hk)
    have r1 := abs_le.1 (hR (r + k) (by omega) (by omega))
    have r2 := abs_le.1 (hR (r + (k + 1)) (by omega) (by omega))
    have hq' : timesFrom b r k + timesFrom b r (k + 1) ≤ q * (timesFrom b r (k + 1) - timesFrom b r k) := hq (r + k) (by omega) (by omega)
    have e1 : χ' k - χ k = (timesFrom b r (k + 1) * (valuesFrom b' r k - valuesFrom b r k) - timesFrom b r k * (valuesFrom b' r (k + 1) - valuesFrom b r (k + 1))) / (timesFrom b r (k + 1) - timesFrom b r k) := by
      simp only [hχ, hχ', chordIntercept]
      rw [← sub_div]
      congr 1
      ring
    rw [e1, abs_div, abs_of_pos h3, div_le_iff₀ h3]
    have a1 : |timesFrom b r (k + 1) * (valuesFrom b' r k - valuesFrom b r k) - timesFrom b r k * (valuesFrom b' r (k + 1) - valuesFrom b r (k + 1))| ≤ (timesFrom b r k + timesFrom b r (k + 1)) * R := by
      rw [abs_le]
      unfold valuesFrom
      constructor <;> nlinarith [r1.1, r1.2, r2.1, r2.2]
    calc _ ≤ _ := a1
      _ ≤ q * (timesFrom b r (k + 1) - timesFrom b r k) * R := mul_le_mul_of_nonneg_right hq' hR0
      _ = _ := by ring
  have hmean : |weightedMean (chordWeight (timesFrom b r)) χ' m - weightedMean (chordWeight (timesFrom b r)) χ m| ≤ q * R := by
    have hsub : weightedMean (chordWeight (timesFrom b r)) χ' m - weightedMean (chordWeight (timesFrom b r)) χ m = weightedMean (chordWeight (timesFrom b r)) (fun k => χ' k - χ k) m := by
      unfold weightedMean
      rw [← sub_div, ← Finset.sum_sub_distrib]
      simp only [mul_sub]
    rw [hsub]
    have := weightedMean_near hwp (by omega) (x := fun k => χ' k - χ k) (x₀ := 0) (B := q * R) fun k hk => by rw [sub_zero]; exact hclose k hk
    rwa [sub_zero] at this
  rw [e, e']
  refine max_near ?_
  rw [show b.dt.getD r 0 = timesFrom b r 0 from rfl, ← sub_div, abs_div, abs_of_pos ht0, div_le_div_iff_of_pos_right ht0]
  have r0 := abs_le.1 (hR r le_rfl (by omega))
  have r1 := abs_le.1 hmean
  have v0 : valuesFrom b r 0 = b.n.getD r 0 := rfl
  have v1 : valuesFrom b' r 0 = b'.n.getD r 0 := rfl
  rw [abs_le, v0, v1]
  constructor <;> linarith [r0.1, r0.2, r1.1, r1.2]

/-- The gradients of two curves over the same times. -/
theorem model_gap {b b' : Boot K} (hb : InverseCounts b ∧ Aligned b) (hb' : InverseCounts b' ∧ Aligned b') (hdt : b'.dt = b.dt) {r m : ℕ} (hm : m + 1 = b.n.length - r) (hm0 : 0 < m) {g c g' c' : K} (h : ModelFit b r g c)
    (h' : ModelFit b' r g' c') :
    (∀ k < m + 1, 0 < timesFrom b r k) ∧ (∀ k < m, timesFrom b r k < timesFrom b r (k + 1)) ∧
      |g' - g| ≤ (|valuesFrom b' r 0 - valuesFrom b r 0| + |weightedMean (chordWeight (timesFrom b r)) (chordIntercept (timesFrom b r) fun i => valuesFrom b' r i - valuesFrom b r i) m|) / timesFrom b r 0 := by
  have hl : b'.n.length = b.n.length := by rw [← hb'.2.1, hdt, hb.2.1]
  have hm' : m + 1 = b'.n.length - r := by rw [hl]; exact hm
  obtain ⟨e, -⟩ := C147_model b hb r m hm hm0 g c h
  obtain ⟨e', -⟩ := C147_model b' hb' r m hm' hm0 g' c' h'
  obtain ⟨a₀, κ₀, n, A₀, P₀, ld₀, best₀, -, -, hn, hasc, -⟩ := model_sequences hb.1 hb.2 hm h
  have hT : timesFrom b' r = timesFrom b r := by unfold timesFrom; rw [hdt]
  rw [hT] at e'
  have ht0 := (hn 0 (by omega)).2.2
  refine ⟨fun k hk => (hn k hk).2.2, hasc, ?_⟩
  have hsub : weightedMean (chordWeight (timesFrom b r)) (chordIntercept (timesFrom b r) fun i => valuesFrom b' r i - valuesFrom b r i) m =
      weightedMean (chordWeight (timesFrom b r)) (chordIntercept (timesFrom b r) (valuesFrom b' r)) m - weightedMean (chordWeight (timesFrom b r)) (chordIntercept (timesFrom b r) (valuesFrom b r)) m := by
    unfold weightedMean
    rw [← sub_div, ← Finset.sum_sub_distrib]
    congr 1
    refine Finset.sum_congr rfl fun k _ => ?_
    rw [← mul_sub]
    congr 1
    unfold chordIntercept
    rw [← sub_div]
    congr 1
    ring
  rw [hsub, e, e']
  refine max_near ?_
  rw [← sub_div, abs_div, abs_of_pos ht0, div_le_div_iff_of_pos_right ht0, show ∀ p q p' q' : K, p' - q' - (p - q) = (p' - p) - (q' - q) from fun p q p' q' => by ring]
  exact abs_sub _ _

/-- A bound of the mean of errors of intercepts by telescoping sums. -/
theorem chord_mean_close {t : ℕ → K} {m : ℕ} (hm : 0 < m) (ht : ∀ k < m + 1, 0 < t k) (hasc : ∀ k < m, t k < t (k + 1)) {Q : K} (hQ : ∀ k < m, t k ^ 2 + t k * t (k + 1) + t (k + 1) ^ 2 ≤ Q * (t k * t (k + 1))) {x f : ℕ → K}
    {c M : K} (hc : 0 ≤ c) (hM : 0 ≤ M) (hx : ∀ k < m, chordWeight t k * |x k| ≤ c * (f k - f (k + 1))) (hf : f 0 - f m ≤ M * (1 / t 0 ^ 3 - 1 / t m ^ 3)) : |weightedMean (chordWeight t) x m| ≤ c * M * Q := by
  have hw : ∀ k < m, chordWeight t k = (t (k + 1) - t k) / (t k ^ 2 * t (k + 1) ^ 2) := fun k hk => by
    have h1 := ht k (by omega)
    have h2 := ht (k + 1) (by omega)
    have h3 : t (k + 1) - t k ≠ 0 := (sub_pos.2 (hasc k hk)).ne'
    unfold chordWeight
    field_simp
  have hwp : ∀ k < m, 0 < chordWeight t k := fun k hk => by
    have h1 := ht k (by omega)
    have h2 := ht (k + 1) (by omega)
    have h3 := sub_pos.2 (hasc k hk)
    rw [hw k hk]
    positivity
  have hW : 0 < ∑ k ∈ Finset.range m, chordWeight t k := Finset.sum_pos (fun k hk => hwp k (Finset.mem_range.1 hk)) ⟨0, Finset.mem_range.2 hm⟩
  have hQ0 : 0 ≤ Q := by
    have h1 := ht 0 (by omega)
    have h2 := ht 1 (by omega)
    by_contra hc
    have := hQ 0 hm
    rw [zero_add] at this
    nlinarith [mul_pos h1 h2, sq_nonneg (t 0), sq_nonneg (t 1)]
  have hlow : 1 / t 0 ^ 3 - 1 / t m ^ 3 ≤ Q * ∑ k ∈ Finset.range m, chordWeight t k := by
    rw [Finset.mul_sum, ← Finset.sum_range_sub' fun k => 1 / t k ^ 3]
    refine Finset.sum_le_sum fun k hk => ?_
    have hk := Finset.mem_range.1 hk
    have h1 := ht k (by omega)
    have h2 := ht (k + 1) (by omega)
    have h3 := sub_pos.2 (hasc k hk)
    rw [hw k hk]
    have e1 : 1 / t k ^ 3 - 1 / t (k + 1) ^ 3 = (t (k + 1) - t k) * (t k ^ 2 + t k * t (k + 1) + t (k + 1) ^ 2) / (t k ^ 3 * t (k + 1) ^ 3) := by
      field_simp
      ring
    have e2 : Q * ((t (k + 1) - t k) / (t k ^ 2 * t (k + 1) ^ 2)) = (t (k + 1) - t k) * (Q * (t k * t (k + 1))) / (t k ^ 3 * t (k + 1) ^ 3) := by
      field_simp
    rw [e1, e2]
    exact div_le_div_of_nonneg_right (mul_le_mul_of_nonneg_left (hQ k hk) h3.le) (by positivity)
  have hup : |∑ k ∈ Finset.range m, chordWeight t k * x k| ≤ c * (f 0 - f m) := by
    refine (Finset.abs_sum_le_sum_abs _ _).trans ?_
    rw [← Finset.sum_range_sub' f, Finset.mul_sum]
    refine Finset.sum_le_sum fun k hk => ?_
    have hk := Finset.mem_range.1 hk
    rw [abs_mul, abs_of_pos (hwp k hk)]
    exact hx k hk
  unfold weightedMean
  rw [abs_div, abs_of_pos hW, div_le_iff₀ hW]
  calc _ ≤ _ := hup
    _ ≤ c * (M * (Q * ∑ k ∈ Finset.range m, chordWeight t k)) := mul_le_mul_of_nonneg_left (hf.trans (mul_le_mul_of_nonneg_left hlow hM)) hc
    _ = _ := by ring

/-- **C147, errors of any number of intervals.** Times at least `δ` apart, with `t² + t t' + t'² ≤ Q t t'` for neighbours (`Q = 7/2` if no time is more than twice the one before, as for all intervals of a trajectory).  Two curves over
these times that differ by at most `R` have gradients with the random walk model that differ by at most `R / t₀ + Q R / δ`.  If the difference grows in proportion to the time, from `R` at the first, it is at most `R / t₀ + 2 Q R / δ`.
Neither depends on the number of intervals or the last time. -/
theorem C147_close (b b' : Boot K) (hb : InverseCounts b ∧ Aligned b) (hb' : InverseCounts b' ∧ Aligned b') (hdt : b'.dt = b.dt) (r : ℕ) (hr : r + 2 ≤ b.n.length) (δ Q R : K) (hδ : 0 < δ)
    (hgap : ∀ i, r ≤ i → i + 1 < b.n.length → δ ≤ b.dt.getD (i + 1) 0 - b.dt.getD i 0)
    (hQ : ∀ i, r ≤ i → i + 1 < b.n.length → b.dt.getD i 0 ^ 2 + b.dt.getD i 0 * b.dt.getD (i + 1) 0 + b.dt.getD (i + 1) 0 ^ 2 ≤ Q * (b.dt.getD i 0 * b.dt.getD (i + 1) 0))
    (g c g' c' : K) (h : ModelFit b r g c) (h' : ModelFit b' r g' c') :
    ((∀ i, r ≤ i → i < b.n.length → |b'.n.getD i 0 - b.n.getD i 0| ≤ R) → |g' - g| ≤ R / b.dt.getD r 0 + Q * R / δ) ∧
    ((∀ i, r ≤ i → i < b.n.length → |b'.n.getD i 0 - b.n.getD i 0| ≤ R * (b.dt.getD i 0 / b.dt.getD r 0)) → |g' - g| ≤ R / b.dt.getD r 0 + 2 * Q * R / δ) := by
  obtain ⟨m, hm⟩ : ∃ m, m + 1 = b.n.length - r := ⟨b.n.length - r - 1, by omega⟩
  obtain ⟨ht, hasc, hg⟩ := model_gap hb hb' hdt hm (by omega) h h'
  have hQ' : ∀ k < m, timesFrom b r k ^ 2 + timesFrom b r k * timesFrom b r (k + 1) + timesFrom b r (k + 1) ^ 2 ≤ Q * (timesFrom b r k * timesFrom b r (k + 1)) := fun k hk => hQ (r + k) (by omega) (by omega)
  have hgap' : ∀ k < m, δ ≤ timesFrom b r (k + 1) - timesFrom b r k := fun k hk => hgap (r + k) (by omega) (by omega)
  have t0e : b.dt.getD r 0 = timesFrom b r 0 := rfl
  rw [t0e]
  have hval : ∀ {P : K → K → Prop}, (∀ i, r ≤ i → i < b.n.length → P |b'.n.getD i 0 - b.n.getD i 0| (b.dt.getD i 0)) → ∀ k < m + 1, P |valuesFrom b' r k - valuesFrom b r k| (timesFrom b r k) :=
    fun hP k hk => hP (r + k) (by omega) (by omega)
  set T := timesFrom b r with hTd
  set y := fun i => valuesFrom b' r i - valuesFrom b r i with hyd
  have ht0 := ht 0 (by omega)
  have htm := ht m (by omega)
  have h0m : T 0 ≤ T m := by
    have : ∀ k ≤ m, T 0 ≤ T k := by
      intro k
      induction k with
      | zero => intro _; exact le_rfl
      | succ k ih => intro hk; exact (ih (by omega)).trans (hasc k (by omega)).le
    exact this m le_rfl
  have hχ : ∀ k < m, chordWeight T k * |chordIntercept T y k| ≤ (T (k + 1) * |y k| + T k * |y (k + 1)|) / (T k ^ 2 * T (k + 1) ^ 2) := by
    intro k hk
    have h1 := ht k (by omega)
    have h2 := ht (k + 1) (by omega)
    have h3 := sub_pos.2 (hasc k hk)
    have e1 : chordWeight T k = (T (k + 1) - T k) / (T k ^ 2 * T (k + 1) ^ 2) := by
      have := h3.ne'
      unfold chordWeight
      field_simp
    have e2 : |chordIntercept T y k| ≤ (T (k + 1) * |y k| + T k * |y (k + 1)|) / (T (k + 1) - T k) := by
      unfold chordIntercept
      rw [abs_div, abs_of_pos h3]
      refine div_le_div_of_nonneg_right ((abs_sub _ _).trans ?_) h3.le
      rw [abs_mul, abs_mul, abs_of_pos h1, abs_of_pos h2]
    rw [e1]
    refine (mul_le_mul_of_nonneg_left e2 (by positivity)).trans (le_of_eq ?_)
    field_simp
  constructor
  · intro hR
    have hR' := hval (P := fun e _ => e ≤ R) hR
    have hR0 : 0 ≤ R := (abs_nonneg _).trans (hR' 0 (by omega))
    have := chord_mean_close (x := chordIntercept T y) (f := fun k => 1 / T k ^ 2) (c := R / δ) (M := T 0) (by omega) ht hasc hQ' (by positivity) ht0.le (fun k hk => by
      have h1 := ht k (by omega)
      have h2 := ht (k + 1) (by omega)
      have h3 := hgap' k hk
      refine (hχ k hk).trans ?_
      have e1 : R / δ * (1 / T k ^ 2 - 1 / T (k + 1) ^ 2) = (T (k + 1) + T k) * R * ((T (k + 1) - T k) / δ) / (T k ^ 2 * T (k + 1) ^ 2) := by
        field_simp
        ring
      rw [e1]
      refine div_le_div_of_nonneg_right ?_ (by positivity)
      have : 1 ≤ (T (k + 1) - T k) / δ := by rw [le_div_iff₀ hδ]; linarith
      have h4 := mul_le_mul_of_nonneg_left (hR' k (by omega)) h2.le
      have h5 := mul_le_mul_of_nonneg_left (hR' (k + 1) (by omega)) h1.le
      have h6 : (T (k + 1) + T k) * R * 1 ≤ (T (k + 1) + T k) * R * ((T (k + 1) - T k) / δ) := mul_le_mul_of_nonneg_left this (by positivity)
      linarith) (by
      have : 1 / T 0 ^ 2 - 1 / T m ^ 2 ≤ 1 / T 0 ^ 2 - T 0 / T m ^ 3 := by
        have : T 0 / T m ^ 3 ≤ T m / T m ^ 3 := div_le_div_of_nonneg_right h0m (by positivity)
        have e : T m / T m ^ 3 = 1 / T m ^ 2 := by field_simp
        linarith
      refine this.trans (le_of_eq ?_)
      field_simp)
    have h7 : |g' - g| ≤ (R + R / δ * T 0 * Q) / T 0 := hg.trans (div_le_div_of_nonneg_right (add_le_add (hR' 0 (by omega)) this) ht0.le)
    refine h7.trans (le_of_eq ?_)
    field_simp
  · intro hR
    have hR' := hval (P := fun e t => e ≤ R * (t / T 0)) hR
    have hR0 : 0 ≤ R := by
      have := (abs_nonneg _).trans (hR' 0 (by omega))
      rwa [div_self ht0.ne', mul_one] at this
    have := chord_mean_close (x := chordIntercept T y) (f := fun k => 1 / T k) (c := 2 * R / (T 0 * δ)) (M := T 0 ^ 2) (by omega) ht hasc hQ' (by positivity) (by positivity) (fun k hk => by
      have h1 := ht k (by omega)
      have h2 := ht (k + 1) (by omega)
      have h3 := hgap' k hk
      refine (hχ k hk).trans ?_
      have e1 : 2 * R / (T 0 * δ) * (1 / T k - 1 / T (k + 1)) = 2 * (T (k + 1) * (R * (T k / T 0))) * ((T (k + 1) - T k) / δ) / (T k ^ 2 * T (k + 1) ^ 2) := by
        field_simp
      rw [e1]
      refine div_le_div_of_nonneg_right ?_ (by positivity)
      have : 1 ≤ (T (k + 1) - T k) / δ := by rw [le_div_iff₀ hδ]; linarith
      have h4 := mul_le_mul_of_nonneg_left (hR' k (by omega)) h2.le
      have h5 := mul_le_mul_of_nonneg_left (hR' (k + 1) (by omega)) h1.le
      have e2 : T k * (R * (T (k + 1) / T 0)) = T (k + 1) * (R * (T k / T 0)) := by ring
      have h6 : 2 * (T (k + 1) * (R * (T k / T 0))) * 1 ≤ 2 * (T (k + 1) * (R * (T k / T 0))) * ((T (k + 1) - T k) / δ) := mul_le_mul_of_nonneg_left this (by positivity)
      linarith) (by
      have : 1 / T 0 - 1 / T m ≤ 1 / T 0 - T 0 ^ 2 / T m ^ 3 := by
        have : T 0 ^ 2 / T m ^ 3 ≤ T m ^ 2 / T m ^ 3 := div_le_div_of_nonneg_right (pow_le_pow_left₀ ht0.le h0m 2) (by positivity)
        have e : T m ^ 2 / T m ^ 3 = 1 / T m := by field_simp
        linarith
      refine this.trans (le_of_eq ?_)
      field_simp)
    have h8 := hR' 0 (by omega)
    rw [div_self ht0.ne', mul_one] at h8
    have h7 : |g' - g| ≤ (R + 2 * R / (T 0 * δ) * T 0 ^ 2 * Q) / T 0 := hg.trans (div_le_div_of_nonneg_right (add_le_add h8 this) ht0.le)
    refine h7.trans (le_of_eq ?_)
    field_simp

/-- Tail of the weights for even times. -/
theorem chord_tail (s : ℕ) (hs : 1 ≤ s) (m : ℕ) : ∑ k ∈ Finset.range m, 1 / (((s + (k + 1) : ℕ) : K) * ((s + (k + 1) + 1 : ℕ) : K)) ^ 2 ≤ 1 / (3 * ((s : K) * (s + 1) * (s + 2))) - 1 / (3 * (((s + m : ℕ) : K) * (s + m + 1) * (s + m + 2))) := by
  induction m with
  | zero => simp
  | succ m ih =>
    rw [Finset.sum_range_succ]
    have hx : (1 : K) ≤ ((s + m : ℕ) : K) := by exact_mod_cast (by omega : 1 ≤ s + m)
    set x : K := ((s + m : ℕ) : K) with hxd
    have e1 : (s : K) + m = x := by rw [hxd]; push_cast; ring
    have e2 : ((s + (m + 1) : ℕ) : K) = x + 1 := by rw [hxd]; push_cast; ring
    have e3 : ((s + (m + 1) + 1 : ℕ) : K) = x + 2 := by rw [hxd]; push_cast; ring
    have e4 : (s : K) + ((m + 1 : ℕ) : K) = x + 1 := by rw [hxd]; push_cast; ring
    rw [e1] at ih
    rw [e2, e3, e4]
    have x0 : 0 < x := by linarith
    have key : 1 / ((x + 1) * (x + 2)) ^ 2 ≤ 1 / (3 * (x * (x + 1) * (x + 2))) - 1 / (3 * ((x + 1) * (x + 1 + 1) * (x + 1 + 2))) := by
      have : 1 / (3 * (x * (x + 1) * (x + 2))) - 1 / (3 * ((x + 1) * (x + 1 + 1) * (x + 1 + 2))) = 1 / (x * (x + 1) * (x + 2) * (x + 3)) := by
        have : x + 1 + 1 = x + 2 := by ring
        rw [this, show x + 1 + 2 = x + 3 by ring]
        field_simp
        ring
      rw [this]
      apply one_div_le_one_div_of_le (by positivity)
      nlinarith [mul_pos x0 x0]
    linarith

/-- **C147, early intervals.** Even intervals, the first of which is `s` times the spacing: the first two points alone determine the fit with the random walk model to a large part.  If the intercepts of all other lines through
neighbouring points are within `B` of that of the first, the gradient is within `s (s + 1) / (s (s + 1) + 3 (s + 2)) * B / t₀` of the slope between the first two points (or zero, if this is negative), however many intervals follow: `2/11 B / t₀`
if the fit starts with the first interval. -/
theorem C147_early (b : Boot K) (hb : InverseCounts b ∧ Aligned b) (r m : ℕ) (hm : m + 1 = b.n.length - r) (hm0 : 0 < m) (s : ℕ) (hs : 1 ≤ s) (τ : K) (hτ : 0 < τ)
    (heven : ∀ i < m + 1, timesFrom b r i = ((s + i : ℕ) : K) * τ) (B : K) (hB : ∀ k < m, |chordIntercept (timesFrom b r) (valuesFrom b r) k - chordIntercept (timesFrom b r) (valuesFrom b r) 0| ≤ B)
    (g c : K) (h : ModelFit b r g c) :
    |g - max 0 ((valuesFrom b r 1 - valuesFrom b r 0) / τ)| ≤ (s : K) * (s + 1) / ((s : K) * (s + 1) + 3 * (s + 2)) * B / ((s : K) * τ) := by
  obtain ⟨e, -⟩ := C147_model b hb r m hm hm0 g c h
  obtain ⟨a₀, κ₀, n, A₀, P₀, ld₀, best₀, -, -, hn, hasc, -⟩ := model_sequences hb.1 hb.2 hm h
  have hs' : (1 : K) ≤ (s : K) := by exact_mod_cast hs
  have s0 : (0 : K) < s := by linarith
  have hw : ∀ k < m, chordWeight (timesFrom b r) k = 1 / (((s + k : ℕ) : K) * ((s + k + 1 : ℕ) : K)) ^ 2 * (1 / τ ^ 3) := by
    intro k hk
    unfold chordWeight
    rw [heven k (by omega), heven (k + 1) (by omega)]
    have e1 : ((s + (k + 1) : ℕ) : K) = ((s + k : ℕ) : K) + 1 := by push_cast; ring
    have e2 : ((s + k + 1 : ℕ) : K) = ((s + k : ℕ) : K) + 1 := by push_cast; ring
    rw [e1, e2]
    have hx : (0 : K) < ((s + k : ℕ) : K) := by exact_mod_cast (by omega : 0 < s + k)
    generalize ((s + k : ℕ) : K) = x at hx
    have : (x + 1) * τ - x * τ = τ := by ring
    rw [this]
    field_simp
    ring
  set w := chordWeight (timesFrom b r) with hwd
  set χ := chordIntercept (timesFrom b r) (valuesFrom b r) with hχ
  have hwp : ∀ k < m, 0 < w k := fun k hk => by
    rw [hw k hk]
    have : (0 : K) < ((s + k : ℕ) : K) := by exact_mod_cast (by omega : 0 < s + k)
    have : (0 : K) < ((s + k + 1 : ℕ) : K) := by exact_mod_cast (by omega : 0 < s + k + 1)
    positivity
  have hB0 : 0 ≤ B := (abs_nonneg _).trans (hB 0 hm0)
  obtain ⟨m, rfl⟩ : ∃ m', m = m' + 1 := ⟨m - 1, by omega⟩
  set S : K := ∑ k ∈ Finset.range m, w (k + 1) with hS
  have hS0 : 0 ≤ S := Finset.sum_nonneg fun k hk => (hwp _ (by have := Finset.mem_range.1 hk; omega)).le
  have hw0 : w 0 = 1 / ((s : K) * (s + 1)) ^ 2 * (1 / τ ^ 3) := by rw [hw 0 (by omega)]; push_cast; ring_nf
  have htail : S ≤ (s : K) * (s + 1) / (3 * (s + 2)) * w 0 := by
    have h1 : S = (∑ k ∈ Finset.range m, 1 / (((s + (k + 1) : ℕ) : K) * ((s + (k + 1) + 1 : ℕ) : K)) ^ 2) * (1 / τ ^ 3) := by
      rw [hS, Finset.sum_mul]
      exact Finset.sum_congr rfl fun k hk => hw (k + 1) (by have := Finset.mem_range.1 hk; omega)
    have h2 := chord_tail (K := K) s hs m
    have h3 : (0 : K) ≤ 1 / (3 * (((s + m : ℕ) : K) * (s + m + 1) * (s + m + 2))) := by positivity
    have h4 : (s : K) * (s + 1) / (3 * (s + 2)) * w 0 = 1 / (3 * ((s : K) * (s + 1) * (s + 2))) * (1 / τ ^ 3) := by
      rw [hw0]
      field_simp
    rw [h1, h4]
    exact mul_le_mul_of_nonneg_right (by linarith) (by positivity)
  have hsum : ∑ k ∈ Finset.range (m + 1), w k = S + w 0 := Finset.sum_range_succ' _ _
  have hmean : |weightedMean w χ (m + 1) - χ 0| ≤ (s : K) * (s + 1) / ((s : K) * (s + 1) + 3 * (s + 2)) * B := by
    have hp0 := hwp 0 (by omega)
    have hpos : 0 < S + w 0 := by linarith
    have e1 : weightedMean w χ (m + 1) - χ 0 = (∑ k ∈ Finset.range m, w (k + 1) * (χ (k + 1) - χ 0)) / (S + w 0) := by
      rw [eq_div_iff hpos.ne', sub_mul]
      unfold weightedMean
      rw [hsum, div_mul_cancel₀ _ hpos.ne', Finset.sum_range_succ']
      simp only [mul_sub, Finset.sum_sub_distrib, ← Finset.sum_mul]
      rw [← hS]
      ring
    rw [e1, abs_div, abs_of_pos hpos, div_le_iff₀ hpos]
    have h1 : |∑ k ∈ Finset.range m, w (k + 1) * (χ (k + 1) - χ 0)| ≤ S * B := by
      rw [hS, Finset.sum_mul]
      refine (Finset.abs_sum_le_sum_abs _ _).trans (Finset.sum_le_sum fun k hk => ?_)
      have hk' := Finset.mem_range.1 hk
      rw [abs_mul, abs_of_pos (hwp (k + 1) (by omega))]
      exact mul_le_mul_of_nonneg_left (hB (k + 1) (by omega)) (hwp (k + 1) (by omega)).le
    refine h1.trans ?_
    have h2 : S ≤ (s : K) * (s + 1) / ((s : K) * (s + 1) + 3 * (s + 2)) * (S + w 0) := by
      have d : (0 : K) < 3 * (s + 2) := by positivity
      have h5 : S * (3 * (s + 2)) ≤ (s : K) * (s + 1) * w 0 := by
        have := mul_le_mul_of_nonneg_right htail d.le
        have e5 : (s : K) * (s + 1) / (3 * (s + 2)) * w 0 * (3 * (s + 2)) = (s : K) * (s + 1) * w 0 := by field_simp
        linarith
      rw [div_mul_eq_mul_div, le_div_iff₀ (by positivity)]
      linarith
    calc S * B ≤ (s : K) * (s + 1) / ((s : K) * (s + 1) + 3 * (s + 2)) * (S + w 0) * B := mul_le_mul_of_nonneg_right h2 hB0
      _ = _ := by ring
  have ht0 : timesFrom b r 0 = (s : K) * τ := by rw [heven 0 (by omega), add_zero]
  have ht1 : timesFrom b r 1 = (s + 1 : K) * τ := by rw [heven 1 (by omega)]; push_cast; ring
  have hslope : (valuesFrom b r 1 - valuesFrom b r 0) / τ = (valuesFrom b r 0 - χ 0) / ((s : K) * τ) := by
    rw [hχ]
    unfold chordIntercept
    rw [ht0, show timesFrom b r (0 + 1) = (s + 1 : K) * τ from ht1]
    have : (s + 1 : K) * τ - s * τ = τ := by ring
    rw [this]
    field_simp
    ring
  rw [e, hslope, ht0]
  refine max_near ?_
  have d : 0 < (s : K) * τ := by positivity
  rw [← sub_div, abs_div, abs_of_pos d, div_le_div_iff_of_pos_right d]
  rw [show valuesFrom b r 0 - weightedMean w χ (m + 1) - (valuesFrom b r 0 - χ 0) = -(weightedMean w χ (m + 1) - χ 0) by ring, abs_neg]
  exact hmean

/-- What the loop has recorded. -/
theorem recorded_aligned {sq : K → K} {o : Oracle K G} {opt : BootOpts K} {Q : Quantity K} {B : Base K} {d : String} {b0 b1 b : Boot K} {q : ℕ} (hb : bootInit B.deltaT B.disp3d B.nO 1 d = .ok b0)
    (hq : q ≤ b0.displacements.length) (hrec : Recorded sq o opt Q B.nO b0 q b) (he : b = { b1 with nO := B.nO.take q }) {κ : K}
    (hκ : ∀ (k : ℕ) (t n : K), B.deltaT[k]? = some t → B.nO[k]? = some n → n * t = κ) (hn : ∀ n ∈ B.nO, 0 < n) (hl : B.nO.length = B.disp3d.length) (hpos : ∀ t ∈ B.deltaT, 0 < t)
    (hasc : B.deltaT.Pairwise (· < ·)) : (InverseCounts b ∧ Aligned b) ∧ b.dt = B.deltaT.take q := by
  have hc := recorded_const hb hrec he hκ
  obtain ⟨ds, dts, sel, d0, i1, i2, -, -, rfl⟩ := bootInit_inv hb
  rw [pyStride_one] at i1 i2
  obtain rfl := Except.ok.inj i1
  obtain rfl := Except.ok.inj i2
  have hdt : ∀ k < q, b.dt[k]? = B.deltaT[k]? := by
    intro k hk
    obtain ⟨a, l, m, w, t', -, -, -, -, e5, -, -, -, -, e10, -⟩ := hrec.entry k hk
    rw [e10]
    exact e5.symm
  have hnO : b.nO = B.nO.take q := by rw [he]
  have e : b.dt = B.deltaT.take q := by
    apply List.ext_getElem?
    intro k
    rw [List.getElem?_take]
    split_ifs with h
    · exact hdt k h
    · rw [List.getElem?_eq_none (by rw [hrec.ldt]; omega)]
  refine ⟨⟨⟨⟨κ, hc⟩, fun t ht => hpos t (List.mem_of_mem_take (e ▸ ht)), fun N hN => hn N (List.mem_of_mem_take (hnO ▸ hN))⟩, hrec.ldt.trans hrec.ln.symm, ?_, ?_⟩, e⟩
  · rw [hnO, hrec.ln, List.length_take, hl]
    exact min_eq_left hq
  · rw [e]
    exact hasc.sublist (List.take_sublist _ _)

theorem runs_aligned {E : Num K} (hfl : E.fl = id) {P : Params K} (hsm : P.sampling = "multi-origin") (hc : 0 < P.stepSkip.val * P.timeStep.val) {S : Select K} {fr : List (Frame K)} {uni : Universe K}
    {base : PyM (Base K)} {unit : K} (hb : ReadFrames E P S fr uni base unit) {sq : K → K} {o : Oracle K G} {U : UncParams K} (hsub : U.sub = 1) {charge : Charge K} {g₁ g₂ : G} {Z : Analyzer K}
    (h : diffusionAnalyzer sq o g₁ U base = .ok (Z, g₂) ∨ jumpAnalyzer sq o g₁ U base = .ok (Z, g₂) ∨ conductivityAnalyzer sq o g₁ U charge base = .ok (Z, g₂))
    (hpos : ∀ t ∈ Z.deltaT, 0 < t) (hasc : Z.deltaT.Pairwise (· < ·)) : (InverseCounts Z.diff ∧ Aligned Z.diff) ∧ ∃ q, Z.diff.dt = Z.deltaT.take q := by
  rcases h with h | h | h
  · obtain ⟨B, hB, rfl, m⟩ := diffusion_inv h
    rw [hsub] at m
    obtain ⟨b0, q, i1, iq, i2, -, b1, -, i3⟩ := msdBootstrap_inv m
    obtain ⟨hn, hl, κ, hκ⟩ := read_const hfl hsm hc hb hB hpos (hasc.imp fun h => h.le)
    obtain ⟨r1, r2⟩ := recorded_aligned i1 iq i2 i3 hκ hn hl hpos hasc
    exact ⟨r1, _, r2⟩
  · obtain ⟨B, hB, rfl, m⟩ := jump_inv h
    rw [hsub] at m
    obtain ⟨b0, q, i1, iq, i2, -, b1, -, i3⟩ := mstdBootstrap_inv m
    obtain ⟨hn, hl, κ, hκ⟩ := read_const hfl hsm hc hb hB hpos (hasc.imp fun h => h.le)
    obtain ⟨r1, r2⟩ := recorded_aligned i1 (by omega) i2 i3 hκ hn hl hpos hasc
    exact ⟨r1, _, r2⟩
  · obtain ⟨B, hB, rfl, m⟩ := conductivity_inv h
    rw [hsub] at m
    obtain ⟨b0, q, i1, iq, i2, -, b1, -, i3⟩ := mscdBootstrap_inv m
    obtain ⟨hn, hl, κ, hκ⟩ := read_const hfl hsm hc hb hB hpos (hasc.imp fun h => h.le)
    obtain ⟨r1, r2⟩ := recorded_aligned i1 (by omega) i2 i3 hκ hn hl hpos hasc
    exact ⟨r1, _, r2⟩

/-- **C147, where it applies.** The curves of one trajectory, read by any of the three readers with all its frames, MSD, MSTD and MSCD, satisfy what the theorems on fits with the random walk model ask for, as long as the times are positive
and ascend (as they do by default), whatever the number of atoms. -/
theorem C147_runs (E : Num K) (hfl : E.fl = id) (P : Params K) (hsm : P.sampling = "multi-origin") (hc : 0 < P.stepSkip.val * P.timeStep.val) (S : Select K) (fr : List (Frame K)) (uni : Universe K)
    (base : PyM (Base K)) (unit : K) (hb : ReadFrames E P S fr uni base unit) (sq : K → K) (o : Oracle K G) (U : UncParams K) (hsub : U.sub = 1) (charge : Charge K) (g₁ g₂ : G) (Z : Analyzer K)
    (h : diffusionAnalyzer sq o g₁ U base = .ok (Z, g₂) ∨ jumpAnalyzer sq o g₁ U base = .ok (Z, g₂) ∨ conductivityAnalyzer sq o g₁ U charge base = .ok (Z, g₂))
    (hpos : ∀ t ∈ Z.deltaT, 0 < t) (hasc : Z.deltaT.Pairwise (· < ·)) : InverseCounts Z.diff ∧ Aligned Z.diff :=
  (runs_aligned hfl hsm hc hb hsub h hpos hasc).1

/-! ## Examples -/

/-- The random walk model on a trajectory with the MSD 1/2, 7/4, 5/2 at the times 6, 12, 18: the lines through neighbouring points have the intercepts -3/4 and 1/4 and the weights 9/10 and 1/10, which gives the intercept -13/20 and
the gradient 23/120 (`C147_model`); the slope between the first two points is 5/24, and `C147_early` bounds the difference by 1/33.  The curve of the pool with another trajectory is off by up to 15/4, and the gradient by no more than 15/4 (`C147_errors`) or 45/16 (`C147_close`); the difference grows no faster than 5/4, 5/2, 15/4, which gives 5/3. -/
example : ∃ Z Z' : Analyzer ℚ, exStepsRun [exStepsA] = .ok (Z, ()) ∧ exStepsRun [exStepsA, exStepsB] = .ok (Z', ()) ∧ ∀ g c g' c', ModelFit Z.diff 0 g c → ModelFit Z'.diff 0 g' c' →
    g = 23 / 120 ∧ c = -13 / 20 ∧ |g - 5 / 24| ≤ 1 / 33 ∧ |g' - g| ≤ 15 / 4 ∧ |g' - g| ≤ 45 / 16 ∧ |g' - g| ≤ 5 / 3 := by
  obtain ⟨Z, e, n, v, o, t⟩ := exSteps_values (x := exStepsRun [exStepsA]) (y := [1 / 2, 7 / 4, 5 / 2]) (v := [1 / 20, 3 / 4, 9 / 4]) (n := [6, 3, 2]) (by decide +kernel)
  obtain ⟨Z', e', n', v', o', t'⟩ := exSteps_values (x := exStepsRun [exStepsA, exStepsB]) (y := [13 / 12, 4, 25 / 4]) (v := [25 / 144, 30 / 7, 177 / 16]) (n := [12, 6, 4]) (by decide +kernel)
  obtain ⟨k, -⟩ := exModel_one (23 / 120) (-13 / 20) n o t rfl (by norm_num) (by decide +kernel)
  obtain ⟨k', -⟩ := exModel_two (167 / 360) (-17 / 10) n' o' t' rfl (by norm_num) (by decide +kernel)
  have eT : timesFrom Z.diff 0 = exIncr [6, 12, 18] := by funext i; simp [timesFrom, exIncr, t]
  have eY : valuesFrom Z.diff 0 = exIncr [1 / 2, 7 / 4, 5 / 2] := by funext i; simp only [valuesFrom, exIncr, n, zero_add]
  refine ⟨Z, Z', e, e', fun g c g' c' h h' => ?_⟩
  obtain ⟨q1, q2⟩ := C147_model Z.diff k 0 2 (by rw [n]; rfl) (by omega) g c h
  rw [eT, eY] at q1 q2
  have hg : g = 23 / 120 := by rw [q1]; decide +kernel
  have two : ∀ {p : ℕ → Prop}, (∀ i < 2, p i) → ∀ i, 0 ≤ i → i + 1 < Z.diff.n.length → p i := fun hp i _ hi => hp i (by rw [n] at hi; exact Nat.lt_of_succ_lt_succ hi)
  have cl := fun R => C147_close Z.diff Z'.diff k k' (by rw [t, t']) 0 (by rw [n]; decide) 6 (7 / 2) R (by norm_num) (two (by rw [t]; decide +kernel)) (two (by rw [t]; decide +kernel)) g c g' c' h h'
  refine ⟨hg, ?_, ?_, ?_, ?_, ?_⟩
  · rw [(q2 (by rw [hg]; norm_num)).1]; decide +kernel
  · have := C147_early Z.diff k 0 2 (by rw [n]; rfl) (by omega) 1 le_rfl 6 (by norm_num) (by rw [eT]; decide +kernel) 1 (by rw [eT, eY]; decide +kernel) g c h
    rw [eY, show max 0 ((exIncr [1 / 2, 7 / 4, 5 / 2] 1 - exIncr [1 / 2, 7 / 4, 5 / 2] 0) / 6) = 5 / 24 from by decide +kernel] at this
    refine this.trans ?_
    norm_num
  · have := C147_errors Z.diff Z'.diff k k' (by rw [t, t']) 0 (by rw [n]; decide) (15 / 4) 5 (by rw [n, n']; decide +kernel)
      (fun i _ hi => by rw [n] at hi; rw [t]; exact (show ∀ i < 2, ([6, 12, 18] : List ℚ).getD i 0 + [6, 12, 18].getD (i + 1) 0 ≤ 5 * ([6, 12, 18].getD (i + 1) 0 - [6, 12, 18].getD i 0) from by decide +kernel) i (Nat.lt_of_succ_lt_succ hi)) g c g' c' h h'
    rw [t] at this
    refine this.trans ?_
    decide +kernel
  · refine ((cl (15 / 4)).1 (by rw [n, n']; decide +kernel)).trans ?_
    rw [t]
    decide +kernel
  · refine ((cl (5 / 4)).2 (by rw [n, n', t]; decide +kernel)).trans ?_
    rw [t]
    decide +kernel

/-- `C147_measured` on the same trajectory with the measured variances: the intercept -31/56 lies between -3/4 and 1/4. -/
example : ∃ Z : Analyzer ℚ, exStepsRun [exStepsA] = .ok (Z, ()) ∧ FittedLine Z.diff 0 (59 / 336) (-31 / 56) ∧ 59 / 336 * 6 + -31 / 56 = valuesFrom Z.diff 0 0 ∧ -3 / 4 ≤ (-31 / 56 : ℚ) ∧ (-31 / 56 : ℚ) ≤ 1 / 4 := by
  obtain ⟨Z, e, n, v, o, t⟩ := exSteps_values (x := exStepsRun [exStepsA]) (y := [1 / 2, 7 / 4, 5 / 2]) (v := [1 / 20, 3 / 4, 9 / 4]) (n := [6, 3, 2]) (by decide +kernel)
  obtain ⟨k, -⟩ := exModel_one (23 / 120) (-13 / 20) n o t rfl (by norm_num) (by decide +kernel)
  obtain ⟨p1, ⟨best, p2⟩, -⟩ := exSteps_line (A := !![1 / 20, 1 / 10, 3 / 20; 1 / 10, 3 / 4, 9 / 8; 3 / 20, 9 / 8, 9 / 4]) (P := !![300 / 11, -40 / 11, 0; -40 / 11, 64 / 11, -8 / 3; 0, -8 / 3, 16 / 9]) (-31 / 56) 36 n v o t rfl rfl
    (by decide +kernel) (by decide +kernel) (by decide +kernel) (by decide +kernel) (by decide +kernel) (by decide +kernel) (by decide +kernel) (by decide +kernel) (by decide +kernel) 0
  rw [show (exIncr [1 / 2, 7 / 4, 5 / 2] 0 - -31 / 56) / 6 = 59 / 336 from by decide +kernel] at p2
  have hF : FittedLine Z.diff 0 (59 / 336) (-31 / 56) := by
    refine ⟨Z.diff.v, 2, _, 0, best, by rw [v, n]; rfl, by rw [n]; rfl, p1, ?_, by rw [o]; decide +kernel, ?_, ⟨0, 6, 12, le_rfl, by rw [t]; rfl, by rw [t]; rfl, by norm_num⟩, p2⟩
    · intro i _ hi
      rw [n] at hi
      rw [v]
      have hi : i < 3 := hi
      interval_cases i
      · exact ⟨_, rfl, by norm_num⟩
      · exact ⟨_, rfl, by norm_num⟩
      · exact ⟨_, rfl, by norm_num⟩
    · intro i x x' N N' _ h1 h2 h3 h4
      rw [v] at h1 h2
      rw [o] at h3 h4
      match i, h1, h2, h3, h4 with
      | 0, h1, h2, h3, h4 => cases h1; cases h2; cases h3; cases h4; norm_num
      | 1, h1, h2, h3, h4 => cases h1; cases h2; cases h3; cases h4; norm_num
      | 2, h1, h2, h3, h4 => cases h2
      | i + 3, h1, h2, h3, h4 => cases h1
  have eT : timesFrom Z.diff 0 = exIncr [6, 12, 18] := by funext i; simp [timesFrom, exIncr, t]
  have eY : valuesFrom Z.diff 0 = exIncr [1 / 2, 7 / 4, 5 / 2] := by funext i; simp only [valuesFrom, exIncr, n, zero_add]
  obtain ⟨-, q⟩ := C147_measured Z.diff k 0 2 (by rw [n]; rfl) (by omega) _ _ hF
  obtain ⟨q1, q2⟩ := q (by norm_num)
  obtain ⟨q3, q4⟩ := q2 (-3 / 4) (1 / 4) (by rw [eT, eY]; decide +kernel)
  exact ⟨Z, e, hF, by rw [← q1, eT]; decide +kernel, q3, q4⟩

/-- `C147_runs` with a single atom: of the five intervals the first two are fitted. -/
example : ∃ Z, diffusionAnalyzer id (exOracle ℚ) () exUnc (fromAse exNum exParams exSelectOne 1 none (.one exTraj)) = .ok (Z, ()) ∧ Z.deltaT = [6, 12, 18, 24, 30] ∧ Z.diff.dt = [6, 12] ∧
    InverseCounts Z.diff ∧ Aligned Z.diff := by
  obtain ⟨⟨Z, u⟩, h⟩ := ok_of_isSome (x := diffusionAnalyzer id (exOracle ℚ) () exUnc (fromAse exNum exParams exSelectOne 1 none (.one exTraj))) (by decide +kernel)
  have k : (diffusionAnalyzer id (exOracle ℚ) () exUnc (fromAse exNum exParams exSelectOne 1 none (.one exTraj))).toOption.map (fun z => (z.1.deltaT, z.1.diff.dt)) =
      some ([6, 12, 18, 24, 30], [6, 12]) := by decide +kernel
  rw [h] at k
  simp only [Except.toOption, Option.map_some, Option.some.injEq, Prod.mk.injEq] at k
  refine ⟨Z, h, k.1, k.2, C147_runs exNum rfl exParams rfl (by decide +kernel) exSelectOne exTraj ([], []) _ 1 (.inl ⟨rfl, rfl⟩) id (exOracle ℚ) exUnc rfl (.scalar 1) () u Z (.inl h) ?_ ?_⟩
  · rw [k.1]; decide +kernel
  · rw [k.1]; decide +kernel

end Kinisi
