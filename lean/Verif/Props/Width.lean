import Verif.Props.Coefficient
import Verif.Props.FitTrajectory
import Verif.Props.Limits
import Verif.Spec.Width
import Mathlib.Tactic.LinearCombination

/-!
# C156: an intercept more than doubles the error bar
-/

set_option linter.unusedSectionVars false
set_option linter.unusedVariables false

namespace Kinisi
open Spec
variable {K : Type} [Field K] [LinearOrder K] [IsStrictOrderedRing K] [FloorRing K] {G : Type}

/-- The random walk model as sequences, for a given matrix. -/
theorem model_data {b : Boot K} {r m : ℕ} (hI : InverseCounts b) (hal : Aligned b) (hm : m + 1 = b.n.length - r) {a : K} {v : List (Option K)} {A : Matrix (Fin (m + 1)) (Fin (m + 1)) K} (ha : 0 < a)
    (hv : modelVariance (b.nO.drop r) (b.dt.drop r) a = .ok v) (hA : populateCovariance v (b.nO.drop r) = .ok (rowsOf A)) :
    ∃ κ : K, 0 < κ ∧ (∀ i < m + 1, 0 < b.nO.getD (r + i) 0 ∧ b.nO.getD (r + i) 0 * timesFrom b r i = κ ∧ 0 < timesFrom b r i) ∧ (∀ k < m, timesFrom b r k < timesFrom b r (k + 1)) ∧
      populateCovariance (List.ofFn fun i : Fin (m + 1) => some (a / b.nO.getD (r + i) 0 * timesFrom b r i ^ 2)) ((List.ofFn fun i : Fin (m + 1) => b.nO.getD (r + i) 0) ++ []) = .ok (rowsOf A) := by
  obtain ⟨⟨κ, hκ⟩, ht, hn⟩ := hI
  obtain ⟨l1, l2, l3⟩ := hal
  have gt : ∀ i < m + 1, b.dt[r + i]? = some (timesFrom b r i) := fun i hi => by
    rw [timesFrom, List.getD_eq_getElem?_getD, List.getElem?_eq_getElem (by omega)]; rfl
  have gn : ∀ i < m + 1, b.nO[r + i]? = some (b.nO.getD (r + i) 0) := fun i hi => by
    rw [List.getD_eq_getElem?_getD, List.getElem?_eq_getElem (by omega)]; rfl
  set T : Fin (m + 1) → K := fun i => timesFrom b r i with hT
  set N : Fin (m + 1) → K := fun i => b.nO.getD (r + i) 0 with hN
  have e1 : b.dt.drop r = List.ofFn T := by
    apply List.ext_getElem
    · simp; omega
    · intro i h1 h2
      have : i < m + 1 := by simpa using h2
      have := gt i this
      rw [List.getElem?_eq_getElem (by rw [List.length_drop] at h1; omega)] at this
      rw [List.getElem_drop, List.getElem_ofFn, Option.some.inj this]
  have e2 : b.nO.drop r = List.ofFn N := by
    apply List.ext_getElem
    · simp; omega
    · intro i h1 h2
      have : i < m + 1 := by simpa using h2
      have := gn i this
      rw [List.getElem?_eq_getElem (by rw [List.length_drop] at h1; omega)] at this
      rw [List.getElem_drop, List.getElem_ofFn, Option.some.inj this]
  have hNp : ∀ i < m + 1, 0 < b.nO.getD (r + i) 0 := fun i hi => hn _ (List.mem_of_getElem? (gn i hi))
  have hTp : ∀ i < m + 1, 0 < timesFrom b r i := fun i hi => ht _ (List.mem_of_getElem? (gt i hi))
  have hc : ∀ i < m + 1, b.nO.getD (r + i) 0 * timesFrom b r i = κ := fun i hi => hκ _ _ _ (gt i hi) (gn i hi)
  have hκp : 0 < κ := by rw [← hc 0 (by omega)]; exact mul_pos (hNp 0 (by omega)) (hTp 0 (by omega))
  have hst : ∀ i j, i < j → j < m + 1 → timesFrom b r i < timesFrom b r j := by
    intro i j hij hj
    have := List.pairwise_iff_getElem.1 l3 (r + i) (r + j) (by omega) (by omega) (by omega)
    have h1 := gt i (by omega)
    have h2 := gt j hj
    rw [List.getElem?_eq_getElem (by omega)] at h1 h2
    rw [Option.some.inj h1, Option.some.inj h2] at this
    exact this
  obtain ⟨f1, -⟩ := model_cov N T a κ (fun i => hNp i i.isLt) (fun i => hc i i.isLt) hκp.le ha.le (fun i j hij => by
    rcases hij.lt_or_eq with h | rfl
    · exact (hst i j h j.isLt).le
    · exact le_refl _)
  rw [e1, e2, f1] at hv
  obtain rfl := Except.ok.inj hv
  rw [e2] at hA
  refine ⟨κ, hκp, fun i hi => ⟨hNp i hi, hc i hi, hTp i hi⟩, fun k hk => hst k (k + 1) (by omega) (by omega), ?_⟩
  rw [List.append_nil]
  exact hA

theorem chordWeight_eq {t : ℕ → K} {k : ℕ} (h1 : 0 < t k) (h2 : t k < t (k + 1)) : chordWeight t k = (t (k + 1) - t k) / (t k * t (k + 1)) ^ 2 := by
  have h3 : 0 < t (k + 1) := h1.trans h2
  have h4 : t (k + 1) - t k ≠ 0 := (sub_pos.2 h2).ne'
  unfold chordWeight
  field_simp

/-- **C156, the likelihood.** The matrix of the random walk model with the coefficient `α`, for times that ascend and numbers of observations inversely proportional to them, and its inverse.  Without an intercept the likelihood of the gradient is normal
with the variance `α / n₀`, about the gradient of the line through the origin and the first point; with an intercept it is normal with this variance times `interceptFactor`, about the gradient of C147. -/
theorem C156_likelihood {m : ℕ} (α κ : K) (n t y : ℕ → K) (hα : 0 < α) (hn : ∀ i < m + 1, 0 < n i) (hκ : ∀ i < m + 1, n i * t i = κ) (ht : ∀ i < m + 1, 0 < t i) (hasc : ∀ k < m, t k < t (k + 1)) (A P : Matrix (Fin (m + 1)) (Fin (m + 1)) K)
    (hA : populateCovariance (List.ofFn fun i : Fin (m + 1) => some (α / n i * t i ^ 2)) ((List.ofFn fun i : Fin (m + 1) => n i) ++ []) = .ok (rowsOf A)) (hP : A * P = 1) (logdet : K) :
    RayVariance (logLikelihood logdet P (fun i => t i) (fun i => y i)) (y 0 / t 0) (α / n 0) ∧
    (0 < m → LineVariance (logLikelihood logdet P (fun i => t i) (fun i => y i)) ((y 0 - weightedMean (chordWeight t) (chordIntercept t y) m) / t 0) (α / n 0 * interceptFactor t m)) := by
  have hκ0 : 0 < κ := by rw [← hκ 0 (by omega)]; exact mul_pos (hn 0 (by omega)) (ht 0 (by omega))
  have hni : ∀ i < m + 1, n i = κ / t i := fun i hi => by rw [← hκ i hi, mul_div_cancel_right₀ _ (ht i hi).ne']
  have n0 := hn 0 (by omega)
  have t0 := ht 0 (by omega)
  have s0 : 0 < α / n 0 := div_pos hα n0
  have hneg : ∀ g rest, g < 0 → logLikelihood logdet P (fun i => t i) (fun i => y i) (g :: rest) = none := by
    intro g rest hg
    unfold logLikelihood
    rw [if_pos (by simpa using hg)]
  set v : ℕ → K := fun i => α / n i * t i ^ 2 with hv
  have hinc : ∀ k < m + 1, v k * n k ^ 2 = α * κ * t k := by
    intro k hk
    have h1 := (hn k hk).ne'
    simp only [hv]
    rw [← hκ k hk]
    field_simp
  refine ⟨⟨s0, fun g hg => hneg g [] hg, ?_⟩, fun hm => ⟨?_, fun g c hg => hneg g [c] hg, ?_⟩⟩
  · refine ⟨-(1 / 2) * (logdet + ∑ k ∈ Finset.range m, jump (fun i => n i * y i) (k + 1) ^ 2 / jump (fun i => v i * n i ^ 2) (k + 1)), fun g hg => ?_⟩
    rw [C134_likelihood v n t y hn [] A P hA hP logdet g hg, increments_const v n t y hn hκ]
    simp only [List.getD_nil, zero_mul, sub_zero, add_zero, Option.some.injEq]
    have : (y 0 - g * t 0) ^ 2 / v 0 = 2 * ((g - y 0 / t 0) ^ 2 / (2 * (α / n 0))) := by
      simp only [hv]
      field_simp
      ring
    rw [this]
    ring
  · have hS : 0 < ∑ k ∈ Finset.range m, chordWeight t k := Finset.sum_pos (fun k hk => by
      have hk' := Finset.mem_range.1 hk
      rw [chordWeight_eq (ht k (by omega)) (hasc k hk')]
      have := ht k (by omega)
      have := ht (k + 1) (by omega)
      exact div_pos (sub_pos.2 (hasc k hk')) (by positivity)) ⟨0, Finset.mem_range.2 hm⟩
    unfold interceptFactor
    positivity
  · have hwp : ∀ k < m, 0 < chordWeight t k := fun k hk => by
      rw [chordWeight_eq (ht k (by omega)) (hasc k hk)]
      have := ht k (by omega)
      have := ht (k + 1) (by omega)
      exact div_pos (sub_pos.2 (hasc k hk)) (by positivity)
    have hS : 0 < ∑ k ∈ Finset.range m, chordWeight t k := Finset.sum_pos (fun k hk => hwp k (Finset.mem_range.1 hk)) ⟨0, Finset.mem_range.2 hm⟩
    have hws : ∀ k < m, jump n (k + 1) ^ 2 / jump (fun i => v i * n i ^ 2) (k + 1) = κ / α * chordWeight t k := by
      intro k hk
      show (n (k + 1) - n k) ^ 2 / (v (k + 1) * n (k + 1) ^ 2 - v k * n k ^ 2) = _
      have h1 := ht k (by omega)
      have h2 := ht (k + 1) (by omega)
      have h7 : t (k + 1) - t k ≠ 0 := (sub_pos.2 (hasc k hk)).ne'
      rw [hinc k (by omega), hinc (k + 1) (by omega), hni k (by omega), hni (k + 1) (by omega), ← mul_sub]
      unfold chordWeight
      field_simp
      ring
    set μ := weightedMean (chordWeight t) (chordIntercept t y) m with hμ
    set S := ∑ k ∈ Finset.range m, chordWeight t k with hSd
    have hchord : ∀ k < m, jump (fun i => n i * y i) (k + 1) = chordIntercept t y k * jump n (k + 1) := by
      intro k hk
      have h1 := ht k (by omega)
      have h2 := ht (k + 1) (by omega)
      have h3 : t (k + 1) - t k ≠ 0 := (sub_pos.2 (hasc k hk)).ne'
      show n (k + 1) * y (k + 1) - n k * y k = (t (k + 1) * y k - t k * y (k + 1)) / (t (k + 1) - t k) * (n (k + 1) - n k)
      rw [hni k (by omega), hni (k + 1) (by omega)]
      field_simp
      ring
    have hsum : ∀ c, ∑ k ∈ Finset.range m, (jump (fun i => n i * y i) (k + 1) - c * jump n (k + 1)) ^ 2 / jump (fun i => v i * n i ^ 2) (k + 1) =
        κ / α * ∑ k ∈ Finset.range m, chordWeight t k * (chordIntercept t y k - μ) ^ 2 + κ / α * S * (c - μ) ^ 2 := by
      intro c
      have e : ∀ k ∈ Finset.range m, (jump (fun i => n i * y i) (k + 1) - c * jump n (k + 1)) ^ 2 / jump (fun i => v i * n i ^ 2) (k + 1) =
          κ / α * (chordWeight t k * (chordIntercept t y k - μ) ^ 2) + κ / α * (c - μ) ^ 2 * chordWeight t k - 2 * (κ / α) * (c - μ) * (chordWeight t k * (chordIntercept t y k - μ)) := by
        intro k hk
        have hk' := Finset.mem_range.1 hk
        rw [hchord k hk', show (chordIntercept t y k * jump n (k + 1) - c * jump n (k + 1)) ^ 2 / jump (fun i => v i * n i ^ 2) (k + 1) =
          (chordIntercept t y k - c) ^ 2 * (jump n (k + 1) ^ 2 / jump (fun i => v i * n i ^ 2) (k + 1)) by ring, hws k hk']
        ring
      rw [Finset.sum_congr rfl e, Finset.sum_sub_distrib, Finset.sum_add_distrib, ← Finset.mul_sum, ← Finset.mul_sum, ← Finset.mul_sum, weightedMean_mul hwp hm]
      ring
    set R := κ / α * ∑ k ∈ Finset.range m, chordWeight t k * (chordIntercept t y k - μ) ^ 2 with hR
    set T := κ / α * S with hT
    have hTp : 0 < T := mul_pos (div_pos hκ0 hα) hS
    have v0 : 0 < v 0 := mul_pos s0 (pow_pos t0 2)
    have hs : α / n 0 * interceptFactor t m = (v 0 + 1 / T) / t 0 ^ 2 := by
      unfold interceptFactor
      rw [← hSd, hT]
      simp only [hv]
      rw [hni 0 (by omega)]
      field_simp
    refine ⟨-(1 / 2) * (logdet + R), 1 / (1 / v 0 + T), μ + (y 0 - μ) / (1 + v 0 * T), -(t 0 / (1 + v 0 * T)), by positivity, fun g c hg => ?_⟩
    rw [C134_likelihood v n t y hn [] A P hA hP logdet g hg]
    simp only [List.getD_cons_zero]
    rw [increments_const v n t y hn hκ, hsum, hs, Option.some.injEq]
    have h1 : 1 + v 0 * T ≠ 0 := by positivity
    have h2 : v 0 + 1 / T ≠ 0 := by positivity
    have h3 : 1 / v 0 + T ≠ 0 := by positivity
    have e1 : (g - (y 0 - μ) / t 0) ^ 2 / (2 * ((v 0 + 1 / T) / t 0 ^ 2)) = (y 0 - μ - g * t 0) ^ 2 * T / (2 * (1 + v 0 * T)) := by
      field_simp
      ring
    have e2 : (c - (μ + (y 0 - μ) / (1 + v 0 * T) + -(t 0 / (1 + v 0 * T)) * g)) ^ 2 / (2 * (1 / (1 / v 0 + T))) =
        ((c - μ) * (1 + v 0 * T) - (y 0 - μ - g * t 0)) ^ 2 / (2 * v 0 * (1 + v 0 * T)) := by
      field_simp
      ring
    rw [e1, e2]
    field_simp
    ring

/-- **C156, more than double.** Whatever the times and their number are, an intercept multiplies the variance of the gradient by more than 4 (and the error bar by more than 2). -/
theorem C156_double {m : ℕ} (hm : 0 < m) (t : ℕ → K) (ht : ∀ i < m + 1, 0 < t i) (hasc : ∀ k < m, t k < t (k + 1)) : 4 < interceptFactor t m := by
  have hle : ∀ j ≤ m, 3 * ∑ k ∈ Finset.range j, chordWeight t k ≤ 1 / t 0 ^ 3 - 1 / t j ^ 3 := by
    intro j hj
    induction j with
    | zero => simp
    | succ j ih =>
      rw [Finset.sum_range_succ, mul_add]
      have h1 := ht j (by omega)
      have h2 := ht (j + 1) (by omega)
      have h3 := hasc j (by omega)
      have : 3 * chordWeight t j ≤ 1 / t j ^ 3 - 1 / t (j + 1) ^ 3 := by
        rw [chordWeight_eq h1 h3, div_sub_div _ _ (by positivity) (by positivity), mul_div_assoc', div_le_div_iff₀ (by positivity) (by positivity)]
        have : 0 ≤ (t (j + 1) - t j) ^ 3 * (t j ^ 2 * t (j + 1) ^ 2) := mul_nonneg (pow_nonneg (sub_pos.2 h3).le 3) (by positivity)
        nlinarith
      linarith [ih (by omega)]
  have hS : 0 < ∑ k ∈ Finset.range m, chordWeight t k := Finset.sum_pos (fun k hk => by
    have hk' := Finset.mem_range.1 hk
    rw [chordWeight_eq (ht k (by omega)) (hasc k hk')]
    have := ht k (by omega)
    have := ht (k + 1) (by omega)
    exact div_pos (sub_pos.2 (hasc k hk')) (by positivity)) ⟨0, Finset.mem_range.2 hm⟩
  have t0 := ht 0 (by omega)
  have tm := ht m (by omega)
  have h := hle m le_rfl
  have h1 : 0 < 1 / t m ^ 3 := by positivity
  have h2 : t 0 ^ 3 * (3 * ∑ k ∈ Finset.range m, chordWeight t k) < 1 := by
    calc t 0 ^ 3 * (3 * ∑ k ∈ Finset.range m, chordWeight t k) < t 0 ^ 3 * (1 / t 0 ^ 3) := mul_lt_mul_of_pos_left (by linarith) (pow_pos t0 3)
      _ = 1 := mul_one_div_cancel (pow_pos t0 3).ne'
  unfold interceptFactor
  have h3 : 0 < t 0 ^ 3 * ∑ k ∈ Finset.range m, chordWeight t k := mul_pos (pow_pos t0 3) hS
  have : 3 < 1 / (t 0 ^ 3 * ∑ k ∈ Finset.range m, chordWeight t k) := by
    rw [lt_div_iff₀ h3]
    linarith
  linarith

/-- **C156, all intervals.** For the intervals `u, 2 u, …, (m + 1) u` of a trajectory the factor lies between 31/7 and 5, whether there are two intervals or ten thousand: the error bar is 2.10 to 2.24 times as large as without an intercept. -/
theorem C156_all {m : ℕ} (hm : 0 < m) (t : ℕ → K) (u : K) (hu : 0 < u) (ht : ∀ i < m + 1, t i = ((i : K) + 1) * u) : 31 / 7 ≤ interceptFactor t m ∧ interceptFactor t m ≤ 5 := by
  have hpos : ∀ i < m + 1, 0 < t i := fun i hi => by rw [ht i hi]; positivity
  have hw : ∀ k < m, t 0 ^ 3 * chordWeight t k = 1 / (((k : K) + 1) * ((k : K) + 2)) ^ 2 := by
    intro k hk
    have e0 := ht 0 (by omega)
    have e1 := ht k (by omega)
    have e2 := ht (k + 1) (by omega)
    have hlt : t k < t (k + 1) := by
      rw [e1, e2]
      push_cast
      nlinarith
    rw [chordWeight_eq (hpos k (by omega)) hlt, e0, e1, e2]
    push_cast
    have : (0 : K) < (k : K) + 1 := by positivity
    have : (0 : K) < (k : K) + 2 := by positivity
    field_simp
    ring
  have hsum : t 0 ^ 3 * ∑ k ∈ Finset.range m, chordWeight t k = ∑ k ∈ Finset.range m, 1 / (((k : K) + 1) * ((k : K) + 2)) ^ 2 := by
    rw [Finset.mul_sum]
    exact Finset.sum_congr rfl fun k hk => hw k (Finset.mem_range.1 hk)
  have hlow : (1 : K) / 4 ≤ ∑ k ∈ Finset.range m, 1 / (((k : K) + 1) * ((k : K) + 2)) ^ 2 := by
    obtain ⟨m, rfl⟩ := Nat.exists_eq_succ_of_ne_zero hm.ne'
    rw [Finset.sum_range_succ']
    have : 0 ≤ ∑ k ∈ Finset.range m, 1 / ((((k + 1 : ℕ) : K) + 1) * (((k + 1 : ℕ) : K) + 2)) ^ 2 := Finset.sum_nonneg fun k _ => by positivity
    have e : (1 : K) / (((0 : ℕ) + 1) * ((0 : ℕ) + 2)) ^ 2 = 1 / 4 := by norm_num
    rw [e]
    linarith
  have hhigh : ∑ k ∈ Finset.range m, 1 / (((k : K) + 1) * ((k : K) + 2)) ^ 2 ≤ 7 / 24 := by
    have h2 : ∀ j : ℕ, ∑ k ∈ Finset.range (j + 2), 1 / (((k : K) + 1) * ((k : K) + 2)) ^ 2 ≤ 7 / 24 := by
      intro j
      rw [Finset.sum_range_succ', Finset.sum_range_succ']
      have := chord_tail (K := K) 2 (by norm_num) j
      have e : ∀ k ∈ Finset.range j, 1 / ((((k + 1 + 1 : ℕ) : K) + 1) * (((k + 1 + 1 : ℕ) : K) + 2)) ^ 2 = 1 / (((2 + (k + 1) : ℕ) : K) * ((2 + (k + 1) + 1 : ℕ) : K)) ^ 2 := by
        intro k _
        push_cast
        ring_nf
      rw [Finset.sum_congr rfl e]
      have h3 : (0 : K) ≤ 1 / (3 * (((2 + j : ℕ) : K) * ((2 : ℕ) + j + 1) * ((2 : ℕ) + j + 2))) := by positivity
      have e1 : (1 : K) / (3 * (((2 : ℕ) : K) * ((2 : ℕ) + 1) * ((2 : ℕ) + 2))) = 1 / 72 := by norm_num
      have e2 : (1 : K) / ((((0 + 1 : ℕ) : K) + 1) * (((0 + 1 : ℕ) : K) + 2)) ^ 2 = 1 / 36 := by norm_num
      have e3 : (1 : K) / ((((0 : ℕ) : K) + 1) * (((0 : ℕ) : K) + 2)) ^ 2 = 1 / 4 := by norm_num
      rw [e1] at this
      rw [e2, e3]
      linarith
    refine le_trans (Finset.sum_le_sum_of_subset_of_nonneg (Finset.range_mono (show m ≤ m + 2 by omega)) fun k _ _ => by positivity) (h2 m)
  unfold interceptFactor
  rw [hsum]
  set S := ∑ k ∈ Finset.range m, 1 / (((k : K) + 1) * ((k : K) + 2)) ^ 2
  have hS : 0 < S := by linarith
  constructor
  · have : 24 / 7 ≤ 1 / S := by
      rw [le_div_iff₀ hS]
      linarith
    linarith
  · have : 1 / S ≤ 4 := by
      rw [div_le_iff₀ hS]
      linarith
    linarith

/-- The chain of a fit is that of a sampler for the log-likelihood `ll`. -/
def Samples (L : GlsLib K) (a : GlsArgs K) (b' : Boot K) (ll : List K → Option K) : Prop :=
  ∃ start chain, b'.flatchain = some chain ∧ getChain a.nBurn a.thin (runChain L ll (a.nSamples + a.nBurn) 0 start) = .ok chain ∧ ∀ θ ∈ start, θ.length = parameters a.fitIntercept

/-- **C156, fit.** A fit with the random walk model, numbers of observations inversely proportional to the times, an exact inverse, and no conditioning.  What is sampled is normal in the gradient: without an intercept with the fitted coefficient per number of observations of the first
fitted interval as variance; with an intercept with this variance times `interceptFactor`, which is more than 4. -/
theorem C156_fit {L : GlsLib K} {a : GlsArgs K} {b b' : Boot K} (h : bootstrapGLS L a b = (b', .ok ())) (hm : a.model = true) (hcov : b'.covariance = b'.npdCovariance)
    (hinv : ∀ m A P, PD A → L.pinvh m A = .ok P → A * P = 1) (hmin : ∀ f x y, L.minimize f x = .ok y → y.length = x.length) (α : K) (hα : b'.popt = some α) (hα0 : 0 < α) (hb : InverseCounts b ∧ Aligned b) :
    ∃ (r : ℕ) (ll : List K → Option K), diffRegime b.dt a.startDt = .ok r ∧ Samples L a b' ll ∧
      RayVariance ll (valuesFrom b r 0 / timesFrom b r 0) (α / b.nO.getD r 0) ∧
      ∀ m, 0 < m → m + 1 = b.n.length - r → 4 < interceptFactor (timesFrom b r) m ∧
        LineVariance ll ((valuesFrom b r 0 - weightedMean (chordWeight (timesFrom b r)) (chordIntercept (timesFrom b r) (valuesFrom b r)) m) / timesFrom b r 0) (α / b.nO.getD r 0 * interceptFactor (timesFrom b r) m) := by
  obtain ⟨r, m, A, chain, v, M, e1, e2, e3, e4, e5, e6, e7, e8⟩ := bootstrapGLS_parts h
  obtain ⟨r', α', v', p1, p2, p3, p4⟩ := bootstrapGLS_model h hm
  rw [e1] at p1
  obtain rfl := Except.ok.inj p1
  rw [hα] at p2
  obtain rfl := Option.some.inj p2
  rw [e2] at p4
  obtain rfl := Option.some.inj p4
  obtain ⟨ld, P, slope, ml, q1, q2, q3, q4, q5, q6, q7⟩ := sampleChain_ok e7
  rw [e5, e6] at hcov
  have hM : M = rowsOf A := (Option.some.inj hcov).symm
  rw [hM] at e4
  rw [List.length_drop] at q4
  obtain ⟨hr, -, -⟩ := diffRegime_ok_iff.mp e1
  have hdl := hb.2.1
  obtain ⟨m, rfl⟩ := Nat.exists_eq_succ_of_ne_zero (show m ≠ 0 by omega)
  have hAP := hinv _ A P (model_pd hb.1 hb.2 q4.symm hα0 p3 e4) q2
  obtain ⟨κ, hκ, hn, hasc, hA⟩ := model_data hb.1 hb.2 q4.symm hα0 p3 e4
  have e3 : logLikelihood ld P (fun i : Fin (m + 1) => (b.dt.drop r).getD i 0) (fun i => (b.n.drop r).getD i 0) = logLikelihood ld P (fun i : Fin (m + 1) => timesFrom b r i) (fun i => valuesFrom b r i) := by
    congr 1
    · funext i; simp [timesFrom, List.getD_eq_getElem?_getD, List.getElem?_drop]
    · funext i; simp [valuesFrom, List.getD_eq_getElem?_getD, List.getElem?_drop]
  obtain ⟨w1, w2⟩ := C156_likelihood α κ (fun i => b.nO.getD (r + i) 0) (timesFrom b r) (valuesFrom b r) hα0 (fun i hi => (hn i hi).1) (fun i hi => (hn i hi).2.1) (fun i hi => (hn i hi).2.2) hasc A P hA hAP ld
  rw [← e3] at w1 w2
  refine ⟨r, _, e1, ⟨_, chain, e8, q7, fun θ hθ => ?_⟩, w1, fun m' h0 hm' => ?_⟩
  · have hst : (startPoint a.fitIntercept slope).length = parameters a.fitIntercept := by unfold startPoint parameters; cases a.fitIntercept <;> rfl
    rw [← hst, ← hmin _ _ _ q6]
    unfold initialWalkers at hθ
    obtain ⟨w, -, rfl⟩ := List.mem_map.1 hθ
    simp
  · obtain rfl : m' = m := by omega
    exact ⟨C156_double h0 _ (fun i hi => (hn i hi).2.2) hasc, w2 h0⟩

/-- **C156, runs.** From the file to the error bars: a trajectory of fewer than ten thousand frames in any format, read with the default intervals, MSD, MSTD or MSCD, fitted without and with an intercept (`model=True`, default `cond_max`, the same `start_dt`, two or more intervals from there on).
Both samplers sample a normal distribution of the gradient, and with an intercept its variance is more than four times as large. -/
theorem C156_runs (E : Num K) (P : Params K) (S : Select K) (sy : List String) (atoms fw : List ℕ) (hS : Picks S sy atoms fw) (hP : DefaultGrid E P) (F : ℕ) (hF : 2 ≤ F) (hF' : F < 10000) (C : ℕ → M3 K) (V : ℕ → K)
    (s x : ℕ → ℕ → V3 K) (hs : StoredIn F sy.length C s x) (base : PyM (Base K)) (unit : K) (hbase : ReadFrames E P S (cellFrames F sy C V s) (cellUniverse F sy C V s) base unit) (sq : K → K) (o : Oracle K G)
    (U : UncParams K) (hsub : U.sub = 1) (charge : Charge K) (g₁ g₂ : G) (Z : Analyzer K)
    (h : diffusionAnalyzer sq o g₁ U base = .ok (Z, g₂) ∨ jumpAnalyzer sq o g₁ U base = .ok (Z, g₂) ∨ conductivityAnalyzer sq o g₁ U charge base = .ok (Z, g₂)) (L L' : GlsLib K) (a a' : GlsArgs K) (b₁ b₂ : Boot K)
    (hg : bootstrapGLS L a Z.diff = (b₁, .ok ())) (hg' : bootstrapGLS L' a' Z.diff = (b₂, .ok ())) (hi : a.fitIntercept = false) (hi' : a'.fitIntercept = true) (hm : a.model = true) (hm' : a'.model = true) (hst : a'.startDt = a.startDt)
    (he : Diagonalises L) (he' : Diagonalises L') (hk : KeepsCovariance L) (hk' : KeepsCovariance L') (hp : ∀ m A P, PD A → L.pinvh m A = .ok P → A * P = 1) (hp' : ∀ m A P, PD A → L'.pinvh m A = .ok P → A * P = 1)
    (hl : ∀ f x y, L.minimize f x = .ok y → y.length = x.length) (hl' : ∀ f x y, L'.minimize f x = .ok y → y.length = x.length) (hcf : L'.curveFit = L.curveFit) (hcm : 10 ^ 16 ≤ a.condMax) (hcm' : 10 ^ 16 ≤ a'.condMax) (α : K) (hα : b₁.popt = some α) (hα0 : 0 < α)
    (h2 : ∃ (i : ℕ) (t : K), Z.diff.dt[i]? = some t ∧ a.startDt ≤ t ∧ i + 1 < Z.diff.dt.length) :
    ∃ (ll ll' : List K → Option K) (g g' s s' : K), Samples L a b₁ ll ∧ Samples L' a' b₂ ll' ∧ RayVariance ll g s ∧ LineVariance ll' g' s' ∧ 4 * s < s' := by
  obtain ⟨hal, -⟩ := run_grid_range hS hP hF hs hbase hsub h
  have hα' : b₂.popt = some α := by
    obtain ⟨r, β, c1, c2, c3⟩ := bootstrapGLS_coefficient hg hm
    obtain ⟨r', β', c1', c2', c3'⟩ := bootstrapGLS_coefficient hg' hm'
    rw [hst, c1] at c1'
    obtain rfl := Except.ok.inj c1'
    rw [hcf, c2] at c2'
    obtain rfl := Except.ok.inj c2'
    rw [c3', ← c3, hα]
  obtain ⟨hcov, -⟩ := C152_runs E P S sy atoms fw hS hP F hF hF' C V s x hs base unit hbase sq o U hsub charge g₁ g₂ Z h L a b₁ hg hm he hk hcm α hα hα0
  obtain ⟨hcov', -⟩ := C152_runs E P S sy atoms fw hS hP F hF hF' C V s x hs base unit hbase sq o U hsub charge g₁ g₂ Z h L' a' b₂ hg' hm' he' hk' hcm' α hα' hα0
  obtain ⟨r, ll, r1, r2, r3, -⟩ := C156_fit hg hm hcov hp hl α hα hα0 hal
  obtain ⟨r', ll', r1', r2', r3', r4'⟩ := C156_fit hg' hm' hcov' hp' hl' α hα' hα0 hal
  rw [hst, r1] at r1'
  obtain rfl := Except.ok.inj r1'
  obtain ⟨q1, q2, q3⟩ := diffRegime_ok_iff.1 r1
  obtain ⟨i, t, i1, i2, i3⟩ := h2
  have hri : r ≤ i := by
    by_contra hc
    have := q3 i (by omega)
    rw [List.getElem?_eq_getElem (by omega)] at i1
    rw [Option.some.inj i1] at this
    exact absurd i2 (not_le.2 this)
  have hdl := hal.2.1
  obtain ⟨f1, f2⟩ := r4' (Z.diff.n.length - r - 1) (by omega) (by omega)
  refine ⟨ll, ll', _, _, _, _, r2, r2', r3, f2, ?_⟩
  rw [mul_comm]
  exact mul_lt_mul_of_pos_left f1 r3.1

/-! ## Examples -/

/-- The factor is 5 for two intervals `u, 2 u`, and between 31/7 and 31/7 + 1/10 for five. -/
example : interceptFactor (exIncr [1, 2]) 1 = 5 ∧ interceptFactor (exIncr [1, 2, 3, 4, 5]) 4 < 31 / 7 + 1 / 10 := by decide +kernel

/-- `C156_likelihood`: the times 1, 2 with 2, 1 observations and the values 3, 2. -/
example (ld : ℚ) : RayVariance (logLikelihood ld !![2, -1 / 2; -1 / 2, 1 / 4] (fun i : Fin 2 => exIncr [1, 2] i) (fun i => exIncr [3, 2] i)) 3 1 ∧
    LineVariance (logLikelihood ld !![2, -1 / 2; -1 / 2, 1 / 4] (fun i : Fin 2 => exIncr [1, 2] i) (fun i => exIncr [3, 2] i)) (-1) 5 := by
  obtain ⟨A, g1, -⟩ := C40_covariance (fun i : Fin 2 => 2 / exIncr [2, 1] i * exIncr [1, 2] i ^ 2) (fun i : Fin 2 => exIncr [2, 1] i) [] (by decide +kernel)
  have hA : A = !![1, 2; 2, 8] := by
    have k : (populateCovariance (List.ofFn fun i : Fin 2 => some (2 / exIncr [2, 1] i * exIncr [1, 2] i ^ 2)) ((List.ofFn fun i : Fin 2 => exIncr [2, 1] i) ++ [])).toOption = some (rowsOf !![1, 2; 2, 8]) := by decide +kernel
    rw [g1] at k
    exact rowsOf_injective (Option.some.inj k)
  subst hA
  have hP : (!![1, 2; 2, 8] : Matrix (Fin 2) (Fin 2) ℚ) * !![2, -1 / 2; -1 / 2, 1 / 4] = 1 := by decide +kernel
  obtain ⟨w1, w2⟩ := C156_likelihood (m := 1) 2 2 (exIncr [2, 1]) (exIncr [1, 2]) (exIncr [3, 2]) (by norm_num) (by decide +kernel) (by decide +kernel) (by decide +kernel) (by decide +kernel) _ _ g1 hP ld
  have w2 := w2 one_pos
  have e1 : exIncr [3, 2] 0 / exIncr [1, 2] 0 = 3 := by decide +kernel
  have e2 : 2 / exIncr [2, 1] 0 = 1 := by decide +kernel
  have e3 : (exIncr [3, 2] 0 - weightedMean (chordWeight (exIncr [1, 2])) (chordIntercept (exIncr [1, 2]) (exIncr [3, 2])) 1) / exIncr [1, 2] 0 = -1 := by decide +kernel
  have e4 : 2 / exIncr [2, 1] 0 * interceptFactor (exIncr [1, 2]) 1 = 5 := by decide +kernel
  rw [e1, e2] at w1
  rw [e3, e4] at w2
  exact ⟨w1, w2⟩

/-- An optimiser that returns where it started. -/
def exStayLib : GlsLib ℚ := { exFitLib with minimize := fun _ x => .ok x }

/-- `C156_fit`: the times 1, 2 with 2, 1 observations, the values 3, 5 and the coefficient 2, with an intercept: the variance is 5, not 1. -/
example : ∃ b' : Boot ℚ, bootstrapGLS exStayLib { exArgs 1 true with model := true } exFitBoot = (b', .ok ()) ∧ ∃ ll, Samples exStayLib { exArgs 1 true with model := true } b' ll ∧ LineVariance ll 2 5 := by
  have o1 : (bootstrapGLS exStayLib { exArgs 1 true with model := true } exFitBoot).2.toOption = some () := by decide +kernel
  have o3 : (bootstrapGLS exStayLib { exArgs 1 true with model := true } exFitBoot).1.popt = some 2 := by decide +kernel
  have o4 : (bootstrapGLS exStayLib { exArgs 1 true with model := true } exFitBoot).1.covariance =
    (bootstrapGLS exStayLib { exArgs 1 true with model := true } exFitBoot).1.npdCovariance := by decide +kernel
  refine ⟨_, ok_of_outcome o1, ?_⟩
  obtain ⟨r, ll, a1, a2, a3, a4⟩ := C156_fit (ok_of_outcome o1) rfl o4 (fun m A P _ h => exModelLib_inv m A P h) (fun f x y h => by rw [← Except.ok.inj h]) 2 o3 (by norm_num) exFit_aligned
  have hr : (diffRegime exFitBoot.dt (1 : ℚ)).toOption = some 0 := by decide +kernel
  rw [show ({ exArgs 1 true with model := true } : GlsArgs ℚ).startDt = 1 from rfl] at a1
  rw [a1] at hr
  obtain rfl := Option.some.inj hr
  obtain ⟨-, f2⟩ := a4 1 one_pos rfl
  refine ⟨ll, a2, ?_⟩
  have e1 : (valuesFrom exFitBoot 0 0 - weightedMean (chordWeight (timesFrom exFitBoot 0)) (chordIntercept (timesFrom exFitBoot 0) (valuesFrom exFitBoot 0)) 1) / timesFrom exFitBoot 0 0 = 2 := by decide +kernel
  have e2 : (2 : ℚ) / exFitBoot.nO.getD 0 0 * interceptFactor (timesFrom exFitBoot 0) 1 = 5 := by decide +kernel
  rw [e1, e2] at f2
  exact f2

/-- The same routines for a fit with one parameter. -/
noncomputable def exRayKeepLib : GlsLib ℝ := { exKeepLib with propose := fun _ _ => [1] }

theorem exRayKeepLib_runs : LibraryRuns exRayKeepLib 1 4 where
  curveFit := exKeepLib_runs.curveFit
  eig := exKeepLib_runs.eig
  covNearest := exKeepLib_runs.covNearest
  slogdet := exKeepLib_runs.slogdet
  pinvh := exKeepLib_runs.pinvh
  linregress := exKeepLib_runs.linregress
  minimize f x0 h _ := by
    refine ⟨_, rfl, by simpa using h, ?_⟩
    intro y hy
    obtain ⟨z, -, rfl⟩ := List.mem_map.mp hy
    split_ifs with hz
    · exact one_ne_zero
    · exact hz
  randn := by
    intro c0 c h
    have h1 := h [0] (by
      refine List.mem_map.mpr ⟨1, by simp, ?_⟩
      simp [exRayKeepLib, exKeepLib, exRunLib])
    have h0 := h [1] (by
      refine List.mem_map.mpr ⟨0, by simp, ?_⟩
      simp [exRayKeepLib, exKeepLib, exRunLib])
    simp at h0 h1
    funext k
    obtain rfl : k = 0 := Subsingleton.elim _ _
    rw [h1, zero_add] at h0
    exact h0
  emceeCheck pos _ _ h _ := by
    simp only [exRayKeepLib, exKeepLib, exRunLib]
    rw [if_pos h]
  propose _ _ := rfl
  dist := exKeepLib_runs.dist

theorem bootstrapGLS_of_diffusion {L : GlsLib K} {a : GlsArgs K} {b b' : Boot K} (h : diffusion L a b = (b', .ok ())) : ∃ b₁, bootstrapGLS L a b = (b₁, .ok ()) := by
  unfold diffusion at h
  cases hg : bootstrapGLS L a b with
  | mk b₁ o =>
  rw [hg] at h
  cases o with
  | error e => cases (Prod.mk.inj h).2
  | ok u => exact ⟨b₁, rfl⟩

/-- The arguments of the fit, with the random walk model and the default `cond_max`. -/
noncomputable def exBothArgs (fi : Bool) : GlsArgs ℝ := { exRunArgs with condMax := 10 ^ 16, model := true, fitIntercept := fi }

/-- `C156_runs`: four frames of a gliding atom, from the frames to the two fits. -/
example : ∃ (Z : Analyzer ℝ) (b₁ b₂ : Boot ℝ), diffusionAnalyzer Real.sqrt (exOracle ℝ) () exUncR (fromAse exNumR exParamsR exSelectR 1 none (.one (wrapped 4 ["Li"] exUnit 1 exGlide fun _ _ _ => 5))) = .ok (Z, ()) ∧
    bootstrapGLS exRayKeepLib (exBothArgs false) Z.diff = (b₁, .ok ()) ∧ bootstrapGLS exKeepLib (exBothArgs true) Z.diff = (b₂, .ok ()) ∧
    ∃ (ll ll' : List ℝ → Option ℝ) (g g' s s' : ℝ), Samples exRayKeepLib (exBothArgs false) b₁ ll ∧ Samples exKeepLib (exBothArgs true) b₂ ll' ∧ RayVariance ll g s ∧ LineVariance ll' g' s' ∧ 4 * s < s' := by
  have hc : chosen ["Li"] ["Li"] = [0] := by decide
  have ho : others ["Li"] ["Li"] = [] := by decide
  have hv := exGlide_valid 4 (by norm_num) (by norm_num)
  obtain ⟨Z, g', hZ, hfit⟩ := C131_diffusion exNumR exParamsR exSelectR ["Li"] _ _ 4 exUnit exGlide 1 hv 1 (fun _ _ _ => 5)
    (fromAse exNumR exParamsR exSelectR 1 none (.one (wrapped 4 ["Li"] exUnit 1 exGlide fun _ _ _ => 5))) (Or.inl ⟨rfl, rfl⟩)
    Real.sqrt (exOracle ℝ) () exUncR (StatisticsRun.off rfl rfl) rfl rfl (by decide +kernel) (by
      intro τ h1 h2 h3
      rw [hc] at h3
      rw [hc, ho]
      have h4 : τ = 1 ∨ τ = 2 := by
        have : τ = 1 ∨ τ = 2 ∨ τ = 3 ∨ τ = 4 := by omega
        rcases this with rfl | rfl | rfl | rfl <;> simp at h3 ⊢
      have hax : axesOf exUncR.dimension = Finset.univ := by decide +kernel
      rw [hax]
      refine ⟨lengthSq Finset.univ (trueMove exUnit exGlide [] 0 0 (τ - 1)), ?_, lengthSq Finset.univ (trueMove exUnit exGlide [] 0 0 (0 + τ)), ?_, ?_⟩
      · simp [reportedSquares]
      · simp only [reportedSquares, List.flatMap_cons, List.flatMap_nil, List.append_nil]
        exact List.mem_cons_of_mem _ (List.mem_map.mpr ⟨0, by simp; omega, rfl⟩)
      · rw [exGlide_move, exGlide_move]
        rcases h4 with rfl | rfl <;> simp [lengthSq, Fin.sum_univ_three] <;> norm_num)
  obtain ⟨taus, -, -, htau, -, -, hdt⟩ := C70_ase exNumR exParamsR exSelectR ["Li"] _ _ hv.picks exGridR 4 (by norm_num) exUnit 1 exGlide (fun _ _ _ => 5)
    hv.half Real.sqrt (exOracle ℝ) exUncR rfl rfl () g' Z hZ
  have h24 : Z.diff.dt = [2, 4] := by
    rw [hdt, htau (by simp [exParamsR]), hc]
    have hr : resolved [0].length 4 ((List.range 4).map fun i => i + 1) = [1, 2] := by decide
    rw [hr]
    simp [exParamsR, PyNum.val]
    norm_num
  have hva : ∀ fi, ValidFit (exBothArgs fi) Z.diff.dt := fun fi => by
    rw [h24]
    refine ⟨?_, ?_, ?_, ?_, ?_⟩
    · simp [exBothArgs, exRunArgs, List.filter_cons]; norm_num
    · cases fi <;> simp [exBothArgs, exRunArgs, parameters]
    all_goals cases fi <;> decide +kernel
  obtain ⟨d₁, hd₁⟩ := hfit exRayKeepLib (exBothArgs false) exRayKeepLib_runs (hva _)
  obtain ⟨d₂, hd₂⟩ := hfit exKeepLib (exBothArgs true) exKeepLib_runs (hva _)
  obtain ⟨b₁, hb₁⟩ := bootstrapGLS_of_diffusion hd₁
  obtain ⟨b₂, hb₂⟩ := bootstrapGLS_of_diffusion hd₂
  have hα : b₁.popt = some 1 := by
    obtain ⟨r, β, c1, c2, c3⟩ := bootstrapGLS_coefficient hb₁ rfl
    rw [c3, ← Except.ok.inj c2]
  have hinv : ∀ (m : ℕ) (A P : Matrix (Fin m) (Fin m) ℝ), PD A → (.ok A⁻¹ : PyM (Matrix (Fin m) (Fin m) ℝ)) = .ok P → A * P = 1 := by
    intro m A P hA h
    rw [← Except.ok.inj h]
    refine Matrix.mul_nonsing_inv A ?_
    rw [isUnit_iff_ne_zero]
    intro h0
    obtain ⟨v, hv0, hv⟩ := Matrix.exists_mulVec_eq_zero_iff.2 h0
    have := hA v hv0
    have h1 : ∀ i, ∑ j, v i * A i j * v j = 0 := fun i => by
      have h2 : ∑ j, A i j * v j = 0 := congrFun hv i
      calc ∑ j, v i * A i j * v j = v i * ∑ j, A i j * v j := by rw [Finset.mul_sum]; exact Finset.sum_congr rfl fun j _ => by ring
        _ = 0 := by rw [h2, mul_zero]
    simp [h1] at this
  have hmin : ∀ (f : List ℝ → Option ℝ) (x y : List ℝ), (.ok (x.map fun y => if y = 0 then 1 else y) : PyM (List ℝ)) = .ok y → y.length = x.length := by
    intro f x y h
    rw [← Except.ok.inj h, List.length_map]
  refine ⟨Z, b₁, b₂, hZ, hb₁, hb₂, ?_⟩
  exact C156_runs exNumR exParamsR exSelectR ["Li"] _ _ hv.picks exGridR 4 (by norm_num) (by norm_num) (fun _ => exUnit) (fun _ => 1) (fun i j k => exGlide i j k + ((5 : ℤ) : ℝ)) _ (seenPath_stored (fun _ _ => hv.cell) _) _ 1 (Or.inl ⟨rfl, rfl⟩)
    Real.sqrt (exOracle ℝ) exUncR rfl (.array [1]) () () Z (Or.inl hZ) exRayKeepLib exKeepLib (exBothArgs false) (exBothArgs true) b₁ b₂ hb₁ hb₂ rfl rfl rfl rfl rfl exKeepLib_eig exKeepLib_eig exKeepLib_near exKeepLib_near
    hinv hinv hmin hmin rfl (le_refl _) (le_refl _) 1 hα one_pos ⟨0, 2, by rw [h24]; rfl, by norm_num [exBothArgs, exRunArgs], by rw [h24]; decide⟩

end Kinisi
