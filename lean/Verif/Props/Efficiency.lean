import Verif.Spec.Efficiency
import Verif.Props.GLS
import Mathlib.Algebra.BigOperators.Field

/-!
# C89: the fitted gradient is the best linear unbiased estimate, and the likelihood has its variance
-/

set_option linter.unusedSectionVars false
set_option linter.unusedVariables false

namespace Kinisi
open Spec
variable {K : Type} [Field K] [LinearOrder K] [IsStrictOrderedRing K] [FloorRing K]

theorem form_eq_dot {m : ℕ} (P : Matrix (Fin m) (Fin m) K) (x y : Fin m → K) : form P x y = dotProduct x (P.mulVec y) := by
  unfold form dotProduct Matrix.mulVec dotProduct
  apply Finset.sum_congr rfl; intro i _
  rw [Finset.mul_sum]
  apply Finset.sum_congr rfl; intro j _
  ring

theorem estVariance_eq {m : ℕ} (S : Matrix (Fin m) (Fin m) K) (w : Fin m → K) : estVariance S w = form S w w := rfl

theorem estimate_eq {m : ℕ} (w y : Fin m → K) : estimate w y = dotProduct w y := rfl

/-- Two values of a linear combination of `x` and `y` under a symmetric matrix. -/
theorem form_combine {m : ℕ} (P : Matrix (Fin m) (Fin m) K) (hs : ∀ i j, P i j = P j i) (x y : Fin m → K) (a b : K) :
    form P (fun i => a * x i + b * y i) (fun i => a * x i + b * y i) = a ^ 2 * form P x x + 2 * (a * b) * form P x y + b ^ 2 * form P y y := by
  have hr : ∀ (u v : Fin m → K) (k : K), form P u (fun i => k * v i) = k * form P u v := by
    intro u v k
    rw [form_comm P hs, form_smul_left, form_comm P hs]
  rw [form_add_right, form_add_left P hs, form_add_left P hs]
  simp only [form_smul_left, hr, form_comm P hs y x]
  ring

/-- Among the linear estimators satisfying the same constraints, one whose covariance with every other equals its variance has the least variance. -/
theorem least_variance {m : ℕ} (S : Matrix (Fin m) (Fin m) K) (hs : ∀ i j, S i j = S j i) (hP : PSD S) (w w' : Fin m → K)
    (h : form S w' w = form S w w) : estVariance S w ≤ estVariance S w' ∧ (PD S → estVariance S w' = estVariance S w → w' = w) := by
  have key : form S (fun i => 1 * w' i + (-1) * w i) (fun i => 1 * w' i + (-1) * w i) = estVariance S w' - estVariance S w := by
    rw [form_combine S hs, h, estVariance_eq, estVariance_eq]
    ring
  refine ⟨?_, fun hpd he => ?_⟩
  · have : 0 ≤ form S (fun i => 1 * w' i + (-1) * w i) (fun i => 1 * w' i + (-1) * w i) := hP _
    rw [key] at this
    linarith
  · by_contra hne
    have : 0 < form S (fun i => 1 * w' i + (-1) * w i) (fun i => 1 * w' i + (-1) * w i) := by
      refine hpd _ fun h0 => hne ?_
      funext i
      have := congrFun h0 i
      simp only [Pi.zero_apply] at this
      linarith
    rw [key, he, sub_self] at this
    exact lt_irrefl _ this

theorem normalEquations_of_best {m : ℕ} {logdet : K} {P : Matrix (Fin m) (Fin m) K} (hs : ∀ i j, P i j = P j i) (hP : PSD P) {t y : Fin m → K} {g c best : K}
    (hg : 0 < g) (hb : BestLine (logLikelihood logdet P t y) g c best) : NormalEquations P t y g c :=
  C45_maximum_normal logdet P hs hP t y g c hg best hb.1 hb.2

theorem normalEquation_of_best {m : ℕ} {logdet : K} {P : Matrix (Fin m) (Fin m) K} (hs : ∀ i j, P i j = P j i) (hP : PSD P) {t y : Fin m → K} {g best : K}
    (hg : 0 < g) (hb : BestRay (logLikelihood logdet P t y) g best) : NormalEquation P t y g := by
  have hB : 0 ≤ form P t t := hP t
  have h : ∀ s, s ≤ g → 0 ≤ 2 * (s * form P t (lineResidual t y g 0)) + s ^ 2 * form P t t := by
    intro s hsg
    have e0 := hb.1
    rw [logLikelihood_eq logdet P t y [g] hg.le] at e0
    have e1 := hb.2 (g - s) _ (logLikelihood_eq logdet P t y [g - s] (by simpa using hsg))
    rw [← Option.some.inj e0] at e1
    simp only [List.getD_cons_zero, List.getD_cons_succ, List.getD_nil] at e1
    rw [form_expand P hs t y g 0 (g - s) 0] at e1
    have e2 := form_combine P hs t (fun _ => 1) (g - (g - s)) (0 - 0)
    simp only [mul_one] at e2
    rw [e2] at e1
    simp only [sub_sub_cancel, sub_self, zero_mul, mul_zero, add_zero, ne_eq, OfNat.ofNat_ne_zero, not_false_eq_true, zero_pow] at e1
    linarith
  show form P t (lineResidual t y g 0) = 0
  set A := form P t (lineResidual t y g 0)
  set B := form P t t
  have hq : 0 < B + 1 := by linarith
  by_contra hA
  rcases lt_or_gt_of_ne hA with hA | hA
  · have hs0 : 0 < min g (-A / (B + 1)) := lt_min hg (div_pos (by linarith) hq)
    have h1 := h _ (min_le_left g (-A / (B + 1)))
    have h2 : min g (-A / (B + 1)) * (B + 1) ≤ -A := (le_div_iff₀ hq).mp (min_le_right _ _)
    nlinarith
  · have hs0 : 0 < A / (B + 1) := div_pos hA hq
    have h1 := h (-(A / (B + 1))) (by linarith)
    have h2 : A / (B + 1) * (B + 1) = A := div_mul_cancel₀ _ hq.ne'
    nlinarith

/-- The inverse of a positive definite matrix is positive definite. -/
theorem pd_inverse {m : ℕ} {P S : Matrix (Fin m) (Fin m) K} (hs : ∀ i j, S i j = S j i) (hSP : S * P = 1) (hP : PD P) : PD S := by
  intro x hx
  have e : S.mulVec (P.mulVec x) = x := by rw [Matrix.mulVec_mulVec, hSP, Matrix.one_mulVec]
  have hPS : P * S = 1 := mul_eq_one_comm.mp hSP
  have e' : P.mulVec (S.mulVec x) = x := by rw [Matrix.mulVec_mulVec, hPS, Matrix.one_mulVec]
  have hne : S.mulVec x ≠ 0 := by
    intro h0
    rw [h0, Matrix.mulVec_zero] at e'
    exact hx e'.symm
  have := hP _ hne
  have h2 : form P (S.mulVec x) (S.mulVec x) = form S x x := by
    rw [form_eq_dot, e', form_eq_dot, dotProduct_comm]
  have h3 : 0 < form P (S.mulVec x) (S.mulVec x) := this
  rw [h2] at h3
  exact h3

section weights
variable {m : ℕ} (P : Matrix (Fin m) (Fin m) K) (t : Fin m → K)

/-- Weights of the generalised least-squares gradient. -/
def glsWeights (i : Fin m) : K :=
  (form P (fun _ => 1) (fun _ => 1) * P.mulVec t i - form P t (fun _ => 1) * P.mulVec (fun _ => 1) i) /
    (form P t t * form P (fun _ => 1) (fun _ => 1) - form P t (fun _ => 1) ^ 2)

theorem dot_glsWeights (hs : ∀ i j, P i j = P j i) (x : Fin m → K) : dotProduct (glsWeights P t) x =
    (form P (fun _ => 1) (fun _ => 1) * form P t x - form P t (fun _ => 1) * form P (fun _ => 1) x) /
      (form P t t * form P (fun _ => 1) (fun _ => 1) - form P t (fun _ => 1) ^ 2) := by
  rw [form_comm P hs t x, form_comm P hs (fun _ => 1) x, form_eq_dot P x t, form_eq_dot P x (fun _ => 1)]
  unfold dotProduct glsWeights
  rw [Finset.mul_sum, Finset.mul_sum, ← Finset.sum_sub_distrib, Finset.sum_div]
  apply Finset.sum_congr rfl; intro i _
  ring

variable {P t}

theorem ones_ne_zero (hne : ∃ i j, t i ≠ t j) : (fun _ : Fin m => (1 : K)) ≠ 0 := by
  obtain ⟨i, -, -⟩ := hne
  intro h
  exact one_ne_zero (congrFun h i)

theorem gram_pos (hs : ∀ i j, P i j = P j i) (hP : PD P) (hne : ∃ i j, t i ≠ t j) :
    0 < form P (fun _ => (1 : K)) (fun _ => 1) ∧ 0 < form P t t * form P (fun _ => 1) (fun _ => 1) - form P t (fun _ => 1) ^ 2 := by
  have h1 : 0 < form P (fun _ => (1 : K)) (fun _ => 1) := hP _ (ones_ne_zero hne)
  refine ⟨h1, ?_⟩
  set a := form P (fun _ => (1 : K)) (fun _ => 1)
  set b := form P t (fun _ => 1)
  have h2 : 0 < form P (fun i => a * t i + (-b) * (fun _ => (1 : K)) i) (fun i => a * t i + (-b) * (fun _ => (1 : K)) i) := by
    refine hP _ fun h0 => ?_
    obtain ⟨i, j, hij⟩ := hne
    have hi := congrFun h0 i
    have hj := congrFun h0 j
    simp only [Pi.zero_apply] at hi hj
    have : a * (t i - t j) = 0 := by linear_combination hi - hj
    rcases mul_eq_zero.mp this with h | h
    · exact h1.ne' h
    · exact hij (sub_eq_zero.mp h)
  rw [form_combine P hs] at h2
  have h3 : a ^ 2 * form P t t + 2 * (a * -b) * b + (-b) ^ 2 * a = a * (form P t t * a - b ^ 2) := by ring
  rw [h3] at h2
  exact (pos_iff_pos_of_mul_pos h2).mp h1

end weights

/-- **C89, estimate.** With an intercept: if the weights of the fit are the inverse of the covariance matrix `S` of the data (symmetric, positive definite) and two intervals differ, there are fixed weights `w`
such that (1) whenever the line of highest likelihood has positive gradient, its gradient is `∑ w i * y i`; (2) this is right for exact lines; (3) every other linear estimator that is right for exact lines has a
larger variance; (4) for each gradient `g'` the highest likelihood is that of a normal distribution around the estimate with exactly the variance of the estimate. -/
theorem C89_efficient {m : ℕ} (logdet : K) (S P : Matrix (Fin m) (Fin m) K) (hS : ∀ i j, S i j = S j i) (hs : ∀ i j, P i j = P j i) (hSP : S * P = 1)
    (hP : PD P) (t : Fin m → K) (hne : ∃ i j, t i ≠ t j) :
    ∃ w : Fin m → K, UnbiasedLine t w ∧ 0 < estVariance S w ∧
      (∀ w', UnbiasedLine t w' → estVariance S w ≤ estVariance S w' ∧ (estVariance S w' = estVariance S w → w' = w)) ∧
      ∀ y g c best, 0 < g → BestLine (logLikelihood logdet P t y) g c best →
        g = estimate w y ∧ ∀ g', 0 ≤ g' →
          (∃ c', logLikelihood logdet P t y [g', c'] = some (best - (g' - g) ^ 2 / (2 * estVariance S w))) ∧
          ∀ c' l, logLikelihood logdet P t y [g', c'] = some l → l ≤ best - (g' - g) ^ 2 / (2 * estVariance S w) := by
  obtain ⟨h11, hD⟩ := gram_pos hs hP hne
  have hpsd : PSD P := by
    intro x
    by_cases hx : x = 0
    · subst hx; simp
    · exact (hP x hx).le
  have hSpd := pd_inverse hS hSP hP
  have hSpsd : PSD S := by
    intro x
    by_cases hx : x = 0
    · subst hx; simp
    · exact (hSpd x hx).le
  set a := form P (fun _ => (1 : K)) (fun _ => 1) with ha
  set b := form P t (fun _ => 1) with hb
  set D := form P t t * a - b ^ 2 with hDd
  have hdot := dot_glsWeights P t hs
  rw [← ha, ← hb, ← hDd] at hdot
  have hwt : dotProduct (glsWeights P t) t = 1 := by
    rw [hdot, form_comm P hs (fun _ => 1) t, ← hb]
    rw [div_eq_one_iff_eq hD.ne', hDd]; ring
  have hw1 : dotProduct (glsWeights P t) (fun _ => 1) = 0 := by
    rw [hdot, ← ha, ← hb]
    rw [div_eq_zero_iff]; left; ring
  -- the covariance with any estimator
  have hcov : ∀ w' : Fin m → K, form S w' (glsWeights P t) = (a * dotProduct w' t - b * dotProduct w' (fun _ => 1)) / D := by
    intro w'
    have e : ∀ x, S.mulVec (P.mulVec x) = x := fun x => by rw [Matrix.mulVec_mulVec, hSP, Matrix.one_mulVec]
    have hwv : glsWeights P t = (a / D) • P.mulVec t + (-(b / D)) • P.mulVec (fun _ => 1) := by
      funext i
      unfold glsWeights
      rw [← ha, ← hb, ← hDd]
      simp only [Pi.add_apply, Pi.smul_apply, smul_eq_mul]
      ring
    rw [form_eq_dot, hwv, Matrix.mulVec_add, Matrix.mulVec_smul, Matrix.mulVec_smul, e, e, dotProduct_add, dotProduct_smul, dotProduct_smul]
    simp only [smul_eq_mul]
    ring
  have hunb : ∀ w' : Fin m → K, UnbiasedLine t w' → dotProduct w' t = 1 ∧ dotProduct w' (fun _ => 1) = 0 := by
    intro w' h
    have h1 := h 1 0
    have h2 := h 0 1
    simp only [one_mul, add_zero, zero_mul, zero_add] at h1 h2
    exact ⟨h1, h2⟩
  have hvar : estVariance S (glsWeights P t) = a / D := by
    rw [estVariance_eq, hcov, hwt, hw1]; ring
  have hvpos : 0 < estVariance S (glsWeights P t) := by rw [hvar]; exact div_pos h11 hD
  refine ⟨glsWeights P t, ?_, hvpos, ?_, ?_⟩
  · intro g c
    have : estimate (glsWeights P t) (fun i => g * t i + c) = g * dotProduct (glsWeights P t) t + c * dotProduct (glsWeights P t) (fun _ => 1) := by
      unfold estimate dotProduct
      rw [Finset.mul_sum, Finset.mul_sum, ← Finset.sum_add_distrib]
      apply Finset.sum_congr rfl; intro i _; ring
    rw [this, hwt, hw1]; ring
  · intro w' hw'
    obtain ⟨u1, u2⟩ := hunb w' hw'
    have : form S w' (glsWeights P t) = form S (glsWeights P t) (glsWeights P t) := by rw [hcov, hcov, u1, u2, hwt, hw1]
    obtain ⟨k1, k2⟩ := least_variance S hS hSpsd (glsWeights P t) w' this
    exact ⟨k1, k2 hSpd⟩
  · intro y g c best hg hbest
    have hN := normalEquations_of_best hs hpsd hg hbest
    refine ⟨?_, ?_⟩
    · rw [estimate_eq]
      have hy : y = fun i => lineResidual t y g c i + (g * t i + c) := by funext i; unfold lineResidual; ring
      have e1 : dotProduct (glsWeights P t) y = dotProduct (glsWeights P t) (lineResidual t y g c) +
          (g * dotProduct (glsWeights P t) t + c * dotProduct (glsWeights P t) (fun _ => 1)) := by
        unfold dotProduct
        rw [Finset.mul_sum, Finset.mul_sum, ← Finset.sum_add_distrib, ← Finset.sum_add_distrib]
        apply Finset.sum_congr rfl; intro i _; unfold lineResidual; ring
      rw [e1, hdot, hN.1, hN.2, hwt, hw1]; ring
    · have hval : ∀ g' c', 0 ≤ g' → logLikelihood logdet P t y [g', c'] =
          some (best - 1 / 2 * ((g - g') ^ 2 * form P t t + 2 * ((g - g') * (c - c')) * b + (c - c') ^ 2 * a)) := by
        intro g' c' h
        have e0 := hbest.1
        rw [logLikelihood_eq logdet P t y [g, c] hg.le] at e0
        rw [logLikelihood_eq logdet P t y [g', c'] h]
        simp only [List.getD_cons_zero, List.getD_cons_succ] at e0 ⊢
        rw [← Option.some.inj e0, form_expand P hs t y g c g' c', hN.1, hN.2]
        have e2 := form_combine P hs t (fun _ => 1) (g - g') (c - c')
        simp only [mul_one] at e2
        rw [e2, ← ha, ← hb]
        congr 1; ring
      intro g' hg'
      have hkey : (g' - g) ^ 2 / (2 * estVariance S (glsWeights P t)) = 1 / 2 * ((g - g') ^ 2 * (D / a)) := by
        rw [hvar]
        have := h11.ne'
        have := hD.ne'
        field_simp
        ring
      rw [hkey]
      refine ⟨⟨c + (g - g') * b / a, ?_⟩, ?_⟩
      · rw [hval g' _ hg']
        congr 1
        rw [hDd]
        have := h11.ne'
        field_simp
        ring
      · intro c' l hl
        rw [hval g' c' hg'] at hl
        rw [← Option.some.inj hl]
        have : (g - g') ^ 2 * form P t t + 2 * ((g - g') * (c - c')) * b + (c - c') ^ 2 * a =
            (g - g') ^ 2 * (D / a) + ((c - c') * a + (g - g') * b) ^ 2 / a := by
          rw [hDd]
          have := h11.ne'
          field_simp
          ring
        rw [this]
        have h0 : 0 ≤ ((c - c') * a + (g - g') * b) ^ 2 / a := by positivity
        linarith

/-- **C89, estimate without intercept.** The same for lines through the origin. -/
theorem C89_efficient_no_intercept {m : ℕ} (logdet : K) (S P : Matrix (Fin m) (Fin m) K) (hS : ∀ i j, S i j = S j i) (hs : ∀ i j, P i j = P j i)
    (hSP : S * P = 1) (hP : PD P) (t : Fin m → K) (hne : ∃ i, t i ≠ 0) :
    ∃ w : Fin m → K, UnbiasedRay t w ∧ 0 < estVariance S w ∧
      (∀ w', UnbiasedRay t w' → estVariance S w ≤ estVariance S w' ∧ (estVariance S w' = estVariance S w → w' = w)) ∧
      ∀ y g best, 0 < g → BestRay (logLikelihood logdet P t y) g best →
        g = estimate w y ∧ ∀ g', 0 ≤ g' → logLikelihood logdet P t y [g'] = some (best - (g' - g) ^ 2 / (2 * estVariance S w)) := by
  have htt : 0 < form P t t := hP t fun h => by obtain ⟨i, hi⟩ := hne; exact hi (congrFun h i)
  have hpsd : PSD P := by
    intro x
    by_cases hx : x = 0
    · subst hx; simp
    · exact (hP x hx).le
  have hSpd := pd_inverse hS hSP hP
  have hSpsd : PSD S := by
    intro x
    by_cases hx : x = 0
    · subst hx; simp
    · exact (hSpd x hx).le
  set w : Fin m → K := fun i => P.mulVec t i / form P t t with hw
  have hdot : ∀ x, dotProduct w x = form P t x / form P t t := by
    intro x
    rw [form_comm P hs t x, form_eq_dot P x t]
    unfold dotProduct
    rw [Finset.sum_div]
    apply Finset.sum_congr rfl; intro i _
    rw [hw]; ring
  have hwt : dotProduct w t = 1 := by rw [hdot, div_self htt.ne']
  have hcov : ∀ w' : Fin m → K, form S w' w = dotProduct w' t / form P t t := by
    intro w'
    have e : ∀ x, S.mulVec (P.mulVec x) = x := fun x => by rw [Matrix.mulVec_mulVec, hSP, Matrix.one_mulVec]
    have hwv : w = (1 / form P t t) • P.mulVec t := by
      funext i
      simp only [hw, Pi.smul_apply, smul_eq_mul]; ring
    rw [form_eq_dot, hwv, Matrix.mulVec_smul, e, dotProduct_smul, smul_eq_mul]
    ring
  have hunb : ∀ w' : Fin m → K, UnbiasedRay t w' → dotProduct w' t = 1 := by
    intro w' h
    have h1 := h 1
    simp only [one_mul] at h1
    exact h1
  have hvar : estVariance S w = 1 / form P t t := by rw [estVariance_eq, hcov, hwt]
  refine ⟨w, ?_, by rw [hvar]; positivity, ?_, ?_⟩
  · intro g
    have : estimate w (fun i => g * t i) = g * dotProduct w t := by
      unfold estimate dotProduct
      rw [Finset.mul_sum]
      apply Finset.sum_congr rfl; intro i _; ring
    rw [this, hwt, mul_one]
  · intro w' hw'
    have : form S w' w = form S w w := by rw [hcov, hcov, hunb w' hw', hwt]
    obtain ⟨k1, k2⟩ := least_variance S hS hSpsd w w' this
    exact ⟨k1, k2 hSpd⟩
  · intro y g best hg hbest
    have hN : form P t (lineResidual t y g 0) = 0 := normalEquation_of_best hs hpsd hg hbest
    refine ⟨?_, ?_⟩
    · rw [estimate_eq]
      have e1 : dotProduct w y = dotProduct w (lineResidual t y g 0) + g * dotProduct w t := by
        unfold dotProduct
        rw [Finset.mul_sum, ← Finset.sum_add_distrib]
        apply Finset.sum_congr rfl; intro i _; unfold lineResidual; ring
      rw [e1, hdot, hN, hwt]; ring
    · intro g' hg'
      have e0 := hbest.1
      rw [logLikelihood_eq logdet P t y [g] hg.le] at e0
      rw [logLikelihood_eq logdet P t y [g'] hg']
      simp only [List.getD_cons_zero, List.getD_cons_succ, List.getD_nil] at e0 ⊢
      rw [← Option.some.inj e0, form_expand P hs t y g 0 g' 0, hN]
      have e2 := form_combine P hs t (fun _ => 1) (g - g') (0 - 0)
      simp only [mul_one] at e2
      rw [e2, hvar]
      congr 1
      have := htt.ne'
      field_simp
      ring

/-- `C89_efficient`. Three independent values of equal variance at the intervals 1, 2, 3, not on a line: all hypotheses hold, and the best line has positive gradient. -/
example : ((1 : Matrix (Fin 3) (Fin 3) ℚ) * 1 = 1) ∧ PD (1 : Matrix (Fin 3) (Fin 3) ℚ) ∧ (∃ i j : Fin 3, (![1, 2, 3] : Fin 3 → ℚ) i ≠ ![1, 2, 3] j) ∧
    ∃ best, BestLine (logLikelihood (0 : ℚ) 1 ![1, 2, 3] ![3, 5, 8]) (5 / 2) (1 / 3) best := by
  have hform : ∀ x : Fin 3 → ℚ, ∑ i, ∑ j, x i * (1 : Matrix (Fin 3) (Fin 3) ℚ) i j * x j = x 0 ^ 2 + x 1 ^ 2 + x 2 ^ 2 := by
    intro x
    simp [Fin.sum_univ_three, Matrix.one_apply]
    ring
  refine ⟨one_mul _, ?_, ⟨0, 1, by decide +kernel⟩, ?_⟩
  · intro x hx
    rw [hform]
    by_contra h
    apply hx
    have h0 := sq_nonneg (x 0)
    have h1 := sq_nonneg (x 1)
    have h2 := sq_nonneg (x 2)
    have e0 : x 0 = 0 := pow_eq_zero_iff two_ne_zero |>.mp (by linarith : x 0 ^ 2 = 0)
    have e1 : x 1 = 0 := pow_eq_zero_iff two_ne_zero |>.mp (by linarith : x 1 ^ 2 = 0)
    have e2 : x 2 = 0 := pow_eq_zero_iff two_ne_zero |>.mp (by linarith : x 2 ^ 2 = 0)
    funext i
    fin_cases i
    · exact e0
    · exact e1
    · exact e2
  · obtain ⟨best, h1, h2, -⟩ := C45_maximum (0 : ℚ) (1 : Matrix (Fin 3) (Fin 3) ℚ) (by intro i j; rw [Matrix.one_apply, Matrix.one_apply]; simp [eq_comm])
      (by intro x; rw [hform]; positivity) ![1, 2, 3] ![3, 5, 8] (5 / 2) (1 / 3) (by norm_num)
      (by unfold NormalEquations form lineResidual; constructor <;> simp [Fin.sum_univ_three, Matrix.one_apply] <;> norm_num)
    exact ⟨best, h1, h2⟩

end Kinisi
