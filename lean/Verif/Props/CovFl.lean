import Verif.Model.CovFl
import Verif.Props.Covariance
import Verif.Props.VarFl
import Verif.Props.Swapped

/-!
# C120: the covariance matrix in floating point arithmetic
-/

set_option linter.unusedSectionVars false
set_option linter.unusedVariables false

namespace Kinisi
open Spec
variable {K : Type} [Field K] [LinearOrder K] [IsStrictOrderedRing K] [FloorRing K]

/-- With exact arithmetic the model is `populateCovariance`. -/
theorem populateCovarianceFl_id (v : List (Option K)) (n : List K) : populateCovarianceFl id v n = populateCovariance v n := by
  rfl

def covValueFl (fl : K → K) (v : List (Option K)) (n : List K) (i j : ℕ) : Option K :=
  (if n.getD j 0 = 0 then none else some (fl (n.getD i 0 / n.getD j 0))).bind fun r => (v.getD i none).map fun x => fl (r * x)

theorem populateCovarianceFl_eq (fl : K → K) {v : List (Option K)} {n : List K} (hl : v.length ≤ n.length) :
    populateCovarianceFl fl v n = .ok (writeAll (covValueFl fl v n) (allPairs v.length) (List.replicate v.length (List.replicate v.length (some 0)))) := by
  have hstep : ∀ i j, i < v.length → j < v.length → ∀ M, covStepFl fl v n i M j =
      .ok (setEntry (setEntry M i j (covValueFl fl v n i j)) j i (covValueFl fl v n i j)) := by
    intro i j hi hj M
    unfold covStepFl covValueFl pyGet
    rw [List.getD_eq_getElem?_getD, List.getD_eq_getElem?_getD, List.getD_eq_getElem?_getD, List.getElem?_eq_getElem (by omega : i < n.length),
      List.getElem?_eq_getElem (by omega : j < n.length), List.getElem?_eq_getElem hi]
    rfl
  have hrow : ∀ i < v.length, ∀ M, (List.range' i (v.length - i)).foldlM (covStepFl fl v n i) M =
      .ok (writeAll (covValueFl fl v n) ((List.range' i (v.length - i)).map fun j => (i, j)) M) := by
    intro i hi M
    unfold writeAll
    rw [List.foldl_map]
    apply foldlM_ok (g := fun M j => setEntry (setEntry M i j (covValueFl fl v n i j)) j i (covValueFl fl v n i j))
    intro j hj M'
    rw [List.mem_range'_1] at hj
    exact hstep i j hi (by omega) M'
  unfold populateCovarianceFl
  rw [foldlM_ok (g := fun M i => writeAll (covValueFl fl v n) ((List.range' i (v.length - i)).map fun j => (i, j)) M)]
  · rw [foldl_writeAll]; rfl
  · intro i hi M
    exact hrow i (List.mem_range.mp hi) M

theorem relErr_mul {fl : K → K} {ε : K} (h : RelErr fl ε) (hε : 0 ≤ ε) (a b : K) : |fl (fl a * b) - b * a| ≤ ((1 + ε) ^ 2 - 1) * |b * a| := by
  have h1 := h (fl a * b)
  have h2 := h a
  have e : |fl a * b - b * a| ≤ ε * |b * a| := by
    rw [show fl a * b - b * a = (fl a - a) * b by ring, abs_mul, abs_mul]
    nlinarith [abs_nonneg b]
  have h3 : |fl a * b| ≤ (1 + ε) * |b * a| := by
    have := abs_sub_abs_le_abs_sub (fl a * b) (b * a)
    linarith
  calc |fl (fl a * b) - b * a| ≤ |fl (fl a * b) - fl a * b| + |fl a * b - b * a| := abs_sub_le _ _ _
    _ ≤ ε * ((1 + ε) * |b * a|) + ε * |b * a| := by
      have := mul_le_mul_of_nonneg_left h3 hε
      linarith
    _ = _ := by ring

/-- **C120, the matrix.** The computed matrix is exactly symmetric, has exactly the variances on its diagonal, and every other entry has the relative error of
two operations; it is positive when the variances and numbers of observations are.  (`fl 1 = 1` and `fl (v i) = v i`: one and the variances are floating point numbers.) -/
theorem C120_matrix {fl : K → K} {ε : K} (h : RelErr fl ε) (hε : 0 ≤ ε) (h1 : fl 1 = 1) {m : ℕ} (v n : Fin m → K) (hv : ∀ i, fl (v i) = v i) (extra : List K)
    (hn : ∀ i, n i ≠ 0) :
    ∃ A : Matrix (Fin m) (Fin m) K, populateCovarianceFl fl (List.ofFn fun i => some (v i)) (List.ofFn n ++ extra) = .ok (rowsOf A) ∧
      (∀ i j, A i j = A j i) ∧ (∀ i, A i i = v i) ∧
      (∀ i j, i ≤ j → |A i j - v i * (n i / n j)| ≤ ((1 + ε) ^ 2 - 1) * |v i * (n i / n j)|) ∧
      ((1 + ε) ^ 2 < 2 → (∀ i, 0 < v i) → (∀ i, 0 < n i) → ∀ i j, 0 < A i j) := by
  have hget : ∀ i : Fin m, (List.ofFn n ++ extra).getD i 0 = n i := by
    intro i
    rw [List.getD_eq_getElem?_getD, List.getElem?_append_left (by simp), List.getElem?_eq_getElem (by simp)]
    simp
  have hvg : ∀ i : Fin m, (List.ofFn fun i => some (v i)).getD i none = some (v i) := by
    intro i
    rw [List.getD_eq_getElem?_getD, List.getElem?_eq_getElem (by simp)]
    simp
  have hval : ∀ i j : Fin m, covValueFl fl (List.ofFn fun i => some (v i)) (List.ofFn n ++ extra) i j = some (fl (fl (n i / n j) * v i)) := by
    intro i j
    unfold covValueFl
    rw [hget, hget, hvg, if_neg (hn j)]
    rfl
  refine ⟨fun i j => fl (fl (n (min i j) / n (max i j)) * v (min i j)), ?_, ?_, ?_, ?_, ?_⟩
  · rw [populateCovarianceFl_eq fl (by simp)]
    congr 1
    have hl : (List.ofFn fun i => some (v i)).length = m := by simp
    rw [hl]
    apply eq_rowsOf (square_writeAll _ _ (square_replicate m _))
    intro i j
    rw [getEntry_writeAll _ _ (fun p hp => (mem_allPairs.mp hp).1) (square_replicate m _) i.isLt j.isLt, if_pos]
    · rw [← hval]; congr 2
    · rw [mem_allPairs]
      dsimp only
      exact ⟨min_le_max, max_lt i.isLt j.isLt⟩
  · intro i j; dsimp only; rw [min_comm, max_comm]
  · intro i; dsimp only; rw [min_self, max_self, div_self (hn i), h1, one_mul, hv]
  · intro i j hij
    dsimp only
    rw [min_eq_left hij, max_eq_right hij]
    exact relErr_mul h hε _ _
  · intro hs hv0 hn0 i j
    dsimp only
    have hx : 0 < v (min i j) * (n (min i j) / n (max i j)) := mul_pos (hv0 _) (div_pos (hn0 _) (hn0 _))
    have he := relErr_mul h hε (n (min i j) / n (max i j)) (v (min i j))
    rw [abs_of_pos hx] at he
    have := (abs_le.mp he).1
    nlinarith

/-- **C120, standard deviations.** The square of the reported standard deviation is the variance up to a relative error. -/
theorem C120_std {fl sq : K → K} {ε : K} (h : RelErr fl ε) (hε : 0 ≤ ε) (hsq : IsSqrt sq) (v : K) (hv : 0 ≤ v) :
    ∃ s, sqrtFl fl sq (some v) = some s ∧ |s ^ 2 - v| ≤ ((1 + ε) ^ 2 - 1) * v ∧ (ε ≤ 1 → 0 ≤ s) := by
  refine ⟨fl (sq v), by simp [sqrtFl, not_lt.mpr hv], ?_⟩
  obtain ⟨h0, h2⟩ := hsq v hv
  have he := h (sq v)
  rw [abs_of_nonneg h0] at he
  have h3 := abs_le.mp he
  generalize sq v = s at *
  generalize fl s = r at *
  subst h2
  constructor
  · rw [show r ^ 2 - s ^ 2 = (r - s) * ((r - s) + 2 * s) by ring, abs_mul]
    have : |r - s + 2 * s| ≤ ε * s + 2 * s := by
      refine (abs_add_le _ _).trans ?_
      rw [abs_of_nonneg (by linarith : 0 ≤ 2 * s)]
      linarith
    calc |r - s| * |r - s + 2 * s| ≤ ε * s * (ε * s + 2 * s) := mul_le_mul he this (abs_nonneg _) (by positivity)
      _ = _ := by ring
  · intro h1
    nlinarith [h3.1]

/-- Three intervals, in binary64: thirds are rounded, the matrix is symmetric all the same. -/
example : ∃ A : Matrix (Fin 3) (Fin 3) ℚ, populateCovarianceFl fl64 [some 1, some 5, some 7] [7, 3, 2] = .ok (rowsOf A) ∧ (∀ i j, A i j = A j i) ∧
    (∀ i, A i i = ![1, 5, 7] i) ∧ A 0 1 ≠ 7 / 3 ∧ |A 0 1 - 7 / 3| ≤ 1 / 10 ^ 14 ∧ ∀ i j, 0 < A i j := by
  obtain ⟨A, e1, e2, e3, e4, e5⟩ := C120_matrix (relErr_of_rounding (by norm_num) rounding_fl64) (by norm_num) (by decide +kernel) (![1, 5, 7] : Fin 3 → ℚ) ![7, 3, 2]
    (by decide +kernel) [] (by decide)
  have e0 : populateCovarianceFl fl64 [some 1, some 5, some 7] [7, 3, 2] = .ok (rowsOf A) := e1
  refine ⟨A, e0, e2, e3, ?_, ?_, e5 (by norm_num) (by decide) (by decide)⟩
  · have e : (populateCovarianceFl fl64 [some 1, some 5, some 7] [7, 3, 2]).toOption.bind (fun M => getEntry M 0 1) ≠ some (some (7 / 3)) := by decide +kernel
    intro h
    rw [e0] at e
    apply e
    simp [rowsOf, getEntry, Except.toOption, h]
  · have := e4 0 1 (by decide)
    simp at this
    refine this.trans ?_
    norm_num [abs_of_pos]

/-- A rounding that makes everything one thousandth too large. -/
example : ∃ s, sqrtFl (fun x : ℝ => x * (1001 / 1000)) Real.sqrt (some 2) = some s ∧ |s ^ 2 - 2| ≤ 1 / 200 ∧ 0 ≤ s ∧ s ^ 2 ≠ 2 := by
  have h : RelErr (fun x : ℝ => x * (1001 / 1000)) (1 / 1000) := by
    intro x
    dsimp only
    rw [show x * (1001 / 1000) - x = 1 / 1000 * x by ring, abs_mul, abs_of_pos (by norm_num : (0 : ℝ) < 1 / 1000)]
  obtain ⟨s, hs, h1, h2⟩ := C120_std h (by norm_num) (fun x hx => ⟨Real.sqrt_nonneg x, Real.sq_sqrt hx⟩) 2 (by norm_num)
  refine ⟨s, hs, h1.trans (by norm_num), h2 (by norm_num), ?_⟩
  have e : s = Real.sqrt 2 * (1001 / 1000) := by
    simp only [sqrtFl, Option.bind_some] at hs
    rw [if_neg (by norm_num)] at hs
    exact (Option.some.inj hs).symm
  rw [e, mul_pow, Real.sq_sqrt (by norm_num)]
  norm_num

/-! ## C121 -/

/-- **C121, the full property is violated.** Two intervals with 7 and 3 observations and the variances 27 and 147: the matrix is positive semi-definite, the one
computed in binary64 is not. -/
theorem C121_violated : ∃ A B : Matrix (Fin 2) (Fin 2) ℚ,
    populateCovariance [some 27, some 147] [7, 3] = .ok (rowsOf B) ∧ PSD B ∧
    populateCovarianceFl fl64 [some 27, some 147] [7, 3] = .ok (rowsOf A) ∧ ¬ PSD A := by
  have hA : (populateCovarianceFl fl64 [some 27, some 147] [7, 3]).toOption = some (rowsOf (!![27, fl64 (fl64 (7 / 3) * 27); fl64 (fl64 (7 / 3) * 27), 147] : Matrix (Fin 2) (Fin 2) ℚ)) := by
    decide +kernel
  have hB : (populateCovariance [some 27, some 147] [7, 3]).toOption = some (rowsOf (!![27, 63; 63, 147] : Matrix (Fin 2) (Fin 2) ℚ)) := by
    decide +kernel
  refine ⟨_, _, ok_of_toOption hB, fun x => ?_, ok_of_toOption hA, fun h => absurd (h ![7, -3]) ?_⟩
  · have : ∑ i, ∑ j, x i * (!![27, 63; 63, 147] : Matrix (Fin 2) (Fin 2) ℚ) i j * x j = 3 * (3 * x 0 + 7 * x 1) ^ 2 := by
      simp [Fin.sum_univ_two]
      ring
    rw [this]
    positivity
  · decide +kernel

/-- A form changed by less than its smallest eigenvalue. -/
theorem form_perturbed {m : ℕ} (A B : Matrix (Fin m) (Fin m) K) (hB : ∀ i j, B i j = B j i) (c S μ : K) (hc : 0 ≤ c) (he : ∀ i j, |A i j - B i j| ≤ c * |B i j|)
    (hS : ∀ i, ∑ j, |B i j| ≤ S) (hμ : c * S ≤ μ) (x : Fin m → K) (hx : μ * ∑ i, x i ^ 2 ≤ ∑ i, ∑ j, x i * B i j * x j) : 0 ≤ ∑ i, ∑ j, x i * A i j * x j := by
  have h1 : ∑ i, ∑ j, x i * B i j * x j - ∑ i, ∑ j, x i * A i j * x j ≤ ∑ i, ∑ j, c * |B i j| * ((x i ^ 2 + x j ^ 2) / 2) := by
    rw [← Finset.sum_sub_distrib]
    refine Finset.sum_le_sum fun i _ => ?_
    rw [← Finset.sum_sub_distrib]
    refine Finset.sum_le_sum fun j _ => ?_
    have e : x i * B i j * x j - x i * A i j * x j = -(A i j - B i j) * (x i * x j) := by ring
    rw [e]
    have h2 : |x i * x j| ≤ (x i ^ 2 + x j ^ 2) / 2 := by
      rw [abs_le]
      constructor <;> nlinarith [sq_nonneg (x i + x j), sq_nonneg (x i - x j)]
    calc -(A i j - B i j) * (x i * x j) ≤ |-(A i j - B i j) * (x i * x j)| := le_abs_self _
      _ = |A i j - B i j| * |x i * x j| := by rw [abs_mul, abs_neg]
      _ ≤ _ := mul_le_mul (he i j) h2 (abs_nonneg _) (mul_nonneg hc (abs_nonneg _))
  have h3 : ∑ i, ∑ j, c * |B i j| * ((x i ^ 2 + x j ^ 2) / 2) = ∑ i, x i ^ 2 * (c * ∑ j, |B i j|) := by
    have e : ∀ i j, c * |B i j| * ((x i ^ 2 + x j ^ 2) / 2) = c * |B i j| * x i ^ 2 / 2 + c * |B i j| * x j ^ 2 / 2 := fun i j => by ring
    simp only [e, Finset.sum_add_distrib]
    rw [Finset.sum_comm (f := fun i j => c * |B i j| * x j ^ 2 / 2), ← Finset.sum_add_distrib]
    refine Finset.sum_congr rfl fun i _ => ?_
    rw [← Finset.sum_add_distrib, Finset.mul_sum, Finset.mul_sum]
    refine Finset.sum_congr rfl fun j _ => ?_
    rw [hB j i]
    ring
  have h4 : ∑ i, x i ^ 2 * (c * ∑ j, |B i j|) ≤ ∑ i, x i ^ 2 * μ :=
    Finset.sum_le_sum fun i _ => mul_le_mul_of_nonneg_left ((mul_le_mul_of_nonneg_left (hS i) hc).trans hμ) (sq_nonneg _)
  rw [← Finset.sum_mul] at h4
  linarith

/-- **C121, what holds.** If the exact form is bounded below by more than the rounding errors (`μ` at least `((1 + ε)² - 1) S`, with `S` a bound of the sums over
rows), the computed matrix is positive semi-definite.  What is missing: matrices nearer to singular ones, see `C121_violated`. -/
theorem C121_partial {fl : K → K} {ε : K} (h : RelErr fl ε) (hε : 0 ≤ ε) (h1 : fl 1 = 1) {m : ℕ} (v n : Fin m → K) (hv : ∀ i, fl (v i) = v i) (extra : List K)
    (hn : ∀ i, n i ≠ 0) (B : Matrix (Fin m) (Fin m) K) (hB : populateCovariance (List.ofFn fun i => some (v i)) (List.ofFn n ++ extra) = .ok (rowsOf B))
    (S μ : K) (hS : ∀ i, ∑ j, |B i j| ≤ S) (hμ : ((1 + ε) ^ 2 - 1) * S ≤ μ) (hpos : ∀ x : Fin m → K, μ * ∑ i, x i ^ 2 ≤ ∑ i, ∑ j, x i * B i j * x j) :
    ∃ A : Matrix (Fin m) (Fin m) K, populateCovarianceFl fl (List.ofFn fun i => some (v i)) (List.ofFn n ++ extra) = .ok (rowsOf A) ∧
      PSD A := by
  obtain ⟨A, e1, e2, -, e4, -⟩ := C120_matrix h hε h1 v n hv extra hn
  obtain ⟨B', f1, f2, -, f4⟩ := C40_covariance v n extra hn
  have hBB : B' = B := rowsOf_injective (Except.ok.inj (f1.symm.trans hB))
  subst hBB
  refine ⟨A, e1, fun x => form_perturbed A B' f2 ((1 + ε) ^ 2 - 1) S μ (by nlinarith) (fun i j => ?_) hS hμ x (hpos x)⟩
  rcases le_total i j with hij | hij
  · rw [f4 i j hij]
    exact e4 i j hij
  · rw [e2, f2, f4 j i hij]
    exact e4 j i hij

/-- Two intervals in binary64. -/
example : ∃ A : Matrix (Fin 2) (Fin 2) ℚ, populateCovarianceFl fl64 [some 27, some 150] [7, 3] = .ok (rowsOf A) ∧
    PSD A := by
  have hB : (populateCovariance [some 27, some 150] [7, 3]).toOption = some (rowsOf (!![27, 63; 63, 150] : Matrix (Fin 2) (Fin 2) ℚ)) := by
    decide +kernel
  refine C121_partial (relErr_of_rounding (by norm_num) rounding_fl64) (by norm_num) (by decide +kernel) (![27, 150] : Fin 2 → ℚ) ![7, 3]
    (by decide +kernel) [] (by decide) _ (ok_of_toOption hB) 213 (1 / 10) (by decide +kernel) (by norm_num) fun x => ?_
  simp [Fin.sum_univ_two]
  nlinarith [sq_nonneg (63 * x 0 + (150 - 1 / 10) * x 1), sq_nonneg (x 0)]

end Kinisi
