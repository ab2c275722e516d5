import Verif.Spec.Conditioning
import Verif.Lemmas.Increments
import Verif.Props.Efficiency
import Mathlib.Algebra.BigOperators.Intervals

/-!
Bounds for the eigenvalues of a positive definite matrix from the diagonals of the matrix and its inverse.
-/

set_option linter.unusedSectionVars false
set_option linter.unusedVariables false

namespace Kinisi
open Spec
variable {K : Type} [Field K] [LinearOrder K] [IsStrictOrderedRing K] [FloorRing K]

/-- A coordinate is bounded by the form and the diagonal of the inverse. -/
theorem coord_sq_le {m : ℕ} {A P : Matrix (Fin m) (Fin m) K} (hs : ∀ i j, A i j = A j i) (hA : PD A) (hAP : A * P = 1) (x : Fin m → K) (i : Fin m) :
    x i ^ 2 ≤ P i i * form A x x ∧ 0 < P i i := by
  set u : Fin m → K := fun j => P j i with hu
  have hAu : A.mulVec u = Pi.single i 1 := by
    have : A.mulVec u = (A * P).col i := by
      funext k
      simp [Matrix.mulVec, dotProduct, Matrix.mul_apply, hu]
    rw [this, hAP]
    funext k
    simp [Matrix.one_apply, Pi.single_apply]
  have e1 : ∀ y : Fin m → K, form A y u = y i := by
    intro y
    rw [form_eq_dot, hAu]
    simp
  have hp : 0 < P i i := by
    have := hA u (by
      intro h0
      rw [h0] at hAu
      have := congrFun hAu i
      simp at this)
    have h2 := e1 u
    unfold form at h2
    rw [h2] at this
    exact this
  refine ⟨?_, hp⟩
  have hpsd : 0 ≤ form A (fun j => P i i * x j + (-(x i)) * u j) (fun j => P i i * x j + (-(x i)) * u j) := by
    by_cases h0 : (fun j => P i i * x j + (-(x i)) * u j) = 0
    · rw [h0]; simp [form]
    · exact (hA _ h0).le
  rw [form_combine A hs, e1, e1] at hpsd
  have : 0 ≤ P i i * (P i i * form A x x - x i ^ 2) := by
    have hui : u i = P i i := rfl
    rw [hui] at hpsd
    nlinarith
  have := nonneg_of_mul_nonneg_right this hp
  linarith

/-- A positive definite matrix has an inverse. -/
theorem pd_has_inverse {m : ℕ} {A : Matrix (Fin m) (Fin m) K} (hA : PD A) : ∃ P, A * P = 1 := by
  have hinj : Function.Injective A.mulVec := by
    intro x y hxy
    by_contra hne
    have := hA (x - y) (sub_ne_zero.2 hne)
    have h0 : A.mulVec (x - y) = 0 := by rw [Matrix.mulVec_sub, hxy, sub_self]
    have h1 := form_eq_dot A (x - y) (x - y)
    rw [h0, dotProduct_zero] at h1
    unfold form at h1
    rw [h1] at this
    exact absurd this (lt_irrefl _)
  have hu := Matrix.mulVec_injective_iff_isUnit.1 hinj
  exact ⟨A⁻¹, Matrix.mul_nonsing_inv A ((Matrix.isUnit_iff_isUnit_det A).1 hu)⟩

/-- Eigenvalues lie between the reciprocal of the trace of the inverse and the trace. -/
theorem eigen_bounds {m : ℕ} {A P : Matrix (Fin m) (Fin m) K} (hs : ∀ i j, A i j = A j i) (hA : PD A) (hAP : A * P = 1) {ev : Fin m → K} {V : Matrix (Fin m) (Fin m) K} (hE : IsEig A ev V) (k : Fin m) :
    0 < ev k ∧ ev k ≤ A.trace ∧ 1 ≤ P.trace * ev k := by
  obtain ⟨hV, hAV⟩ := hE
  have hcol : ∀ k : Fin m, form A (fun j => V j k) (fun j => V j k) = ev k := by
    intro k
    rw [form_eq_dot]
    have e : V.transpose * A * V = Matrix.diagonal ev := by
      rw [hAV]
      calc V.transpose * (V * Matrix.diagonal ev * V.transpose) * V = (V.transpose * V) * Matrix.diagonal ev * (V.transpose * V) := by simp only [Matrix.mul_assoc]
        _ = Matrix.diagonal ev := by rw [hV]; simp
    have := congrFun (congrFun e k) k
    rw [Matrix.diagonal_apply_eq, Matrix.mul_assoc] at this
    rw [← this]
    simp [Matrix.mul_apply, dotProduct, Matrix.mulVec]
  have hnorm : ∀ k : Fin m, ∑ j, V j k ^ 2 = 1 := by
    intro k
    have := congrFun (congrFun hV k) k
    rw [Matrix.one_apply_eq, Matrix.mul_apply] at this
    rw [← this]
    exact Finset.sum_congr rfl fun j _ => by rw [Matrix.transpose_apply]; ring
  have hpos : ∀ k, 0 < ev k := by
    intro k
    rw [← hcol k]
    refine hA _ fun h0 => ?_
    have := hnorm k
    have h1 : ∀ j, V j k = 0 := fun j => congrFun h0 j
    simp [h1] at this
  refine ⟨hpos k, ?_, ?_⟩
  · have htr : A.trace = ∑ j, ev j := by
      rw [hAV, Matrix.trace_mul_comm, ← Matrix.mul_assoc, hV, Matrix.one_mul, Matrix.trace_diagonal]
    rw [htr]
    exact Finset.single_le_sum (fun j _ => (hpos j).le) (Finset.mem_univ k)
  · rw [← hnorm k, Matrix.trace, Finset.sum_mul]
    refine Finset.sum_le_sum fun j _ => ?_
    rw [← hcol k]
    exact (coord_sq_le hs hA hAP (fun j => V j k) j).1

/-- Conditioning number from the two traces. -/
theorem eigenvalues_within {m : ℕ} {A P : Matrix (Fin m) (Fin m) K} (hs : ∀ i j, A i j = A j i) (hA : PD A) (hAP : A * P = 1) {q : K} (hq : A.trace * P.trace ≤ q) : EigenvaluesWithin q A := by
  intro ev V hE
  refine ⟨fun i => (eigen_bounds hs hA hAP hE i).1, fun i j => ?_⟩
  obtain ⟨a1, a2, -⟩ := eigen_bounds hs hA hAP hE i
  obtain ⟨b1, -, b3⟩ := eigen_bounds hs hA hAP hE j
  calc ev i ≤ A.trace := a2
    _ = A.trace * 1 := by ring
    _ ≤ A.trace * (P.trace * ev j) := mul_le_mul_of_nonneg_left b3 (a1.le.trans a2)
    _ = A.trace * P.trace * ev j := by ring
    _ ≤ q * ev j := mul_le_mul_of_nonneg_right hq b1.le

/-- Correlations from the products of the diagonals. -/
theorem correlations_above {m : ℕ} {A P : Matrix (Fin m) (Fin m) K} (hs : ∀ i j, A i j = A j i) (hA : PD A) (hAP : A * P = 1) (hd : ∀ i, 0 < A i i) {q : K} (hq : ∑ i, A i i * P i i ≤ q) (x : Fin m → K) :
    ∑ i, A i i * x i ^ 2 ≤ q * ∑ i, ∑ j, x i * A i j * x j := by
  have h0 : 0 ≤ form A x x := by
    by_cases h : x = 0
    · rw [h]; simp [form]
    · exact (hA x h).le
  calc ∑ i, A i i * x i ^ 2 ≤ ∑ i, A i i * (P i i * form A x x) := Finset.sum_le_sum fun i _ => mul_le_mul_of_nonneg_left (coord_sq_le hs hA hAP x i).1 (hd i).le
    _ = (∑ i, A i i * P i i) * form A x x := by rw [Finset.sum_mul]; exact Finset.sum_congr rfl fun i _ => by ring
    _ ≤ q * form A x x := mul_le_mul_of_nonneg_right hq h0

/-! ## Sums over distinct whole numbers -/

theorem sum_distinct_le {m N : ℕ} (l : Fin m → ℕ) (hl : Function.Injective l) (hN : ∀ i, l i ≤ N) (f : ℕ → K) (hf : ∀ j, 0 ≤ f j) :
    ∑ i, f (l i) ≤ ∑ j ∈ Finset.range (N + 1), f j := by
  rw [← Finset.sum_image (f := f) (s := Finset.univ) (g := l) (fun a _ b _ h => hl h)]
  refine Finset.sum_le_sum_of_subset_of_nonneg (fun j hj => ?_) fun j _ _ => hf j
  obtain ⟨i, -, rfl⟩ := Finset.mem_image.1 hj
  exact Finset.mem_range.2 (by have := hN i; omega)

theorem sum_id (N : ℕ) : 2 * ∑ j ∈ Finset.range (N + 1), (j : K) = N * (N + 1) := by
  induction N with
  | zero => simp
  | succ N ih => rw [Finset.sum_range_succ, mul_add, ih]; push_cast; ring

theorem sum_cubes (N : ℕ) : 4 * ∑ j ∈ Finset.range (N + 1), (j : K) ^ 3 = (N : K) ^ 2 * ((N : K) + 1) ^ 2 := by
  induction N with
  | zero => simp
  | succ N ih => rw [Finset.sum_range_succ, mul_add, ih]; push_cast; ring

theorem sum_inv_squares (N : ℕ) : ∑ j ∈ Finset.range (N + 1), 1 / (j : K) ^ 2 ≤ 2 := by
  have h : ∀ N : ℕ, ∑ j ∈ Finset.range (N + 2), 1 / (j : K) ^ 2 ≤ 2 - 1 / ((N : K) + 1) := by
    intro N
    induction N with
    | zero => simp [Finset.sum_range_succ]; norm_num
    | succ N ih =>
      rw [Finset.sum_range_succ]
      have h1 : (0 : K) < (N : K) + 1 := by positivity
      have h2 : (0 : K) < (N : K) + 2 := by positivity
      have e : 1 / ((N + 2 : ℕ) : K) ^ 2 ≤ 1 / ((N : K) + 1) - 1 / ((N : K) + 2) := by
        push_cast
        rw [div_sub_div _ _ h1.ne' h2.ne', div_le_div_iff₀ (by positivity) (by positivity)]
        nlinarith
      push_cast at e ih ⊢
      have e3 : (N : K) + 1 + 1 = N + 2 := by ring
      rw [e3]
      linarith
  cases N with
  | zero => simp
  | succ N =>
    have := h N
    have h1 : (0 : K) < 1 / ((N : K) + 1) := by positivity
    linarith

end Kinisi
