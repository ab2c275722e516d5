import Verif.Spec.Shortest
import Verif.Props.Disp
import Mathlib.Tactic.LinearCombination

/-!
# C113: when an unwrapped step is the shortest periodic image
-/

set_option linter.unusedSectionVars false

namespace Kinisi
open Spec
variable {K : Type} [Field K] [LinearOrder K] [IsStrictOrderedRing K] [FloorRing K]

theorem sq_le_shift {s : K} (h1 : -(1 / 2) ≤ s) (h2 : s < 1 / 2) (m : ℤ) : s ^ 2 ≤ (s - m) ^ 2 := by
  have h : 0 ≤ (m : K) * (m - 2 * s) := by
    rcases lt_trichotomy m 0 with hm | hm | hm
    · have : (m : K) ≤ -1 := by exact_mod_cast Int.le_sub_one_of_lt hm
      apply mul_nonneg_of_nonpos_of_nonpos <;> linarith
    · rw [hm]; simp
    · have : (1 : K) ≤ m := by exact_mod_cast hm
      apply mul_nonneg <;> linarith
  nlinarith

/-- In a right-angled cell lengths follow from the fractional coordinates axis by axis. -/
theorem norm2_right {L : M3 K} (h : RightAngled L) (s : V3 K) : norm2 (cart L s) = ∑ k, s k ^ 2 * norm2 (L k) := by
  have h01 := h 0 1 (by decide)
  have h02 := h 0 2 (by decide)
  have h12 := h 1 2 (by decide)
  simp only [norm2, inner3, cart, Fin.sum_univ_three] at *
  linear_combination 2 * s 0 * s 1 * h01 + 2 * s 0 * s 2 * h02 + 2 * s 1 * s 2 * h12

theorem norm2_nonneg (d : V3 K) : 0 ≤ norm2 d := Finset.sum_nonneg fun _ _ => sq_nonneg _

theorem inner_sq_le (a b : V3 K) : inner3 a b ^ 2 ≤ norm2 a * norm2 b := by
  simp only [inner3, norm2, Fin.sum_univ_three]
  nlinarith [sq_nonneg (a 0 * b 1 - a 1 * b 0), sq_nonneg (a 0 * b 2 - a 2 * b 0), sq_nonneg (a 1 * b 2 - a 2 * b 1)]

theorem shortest_right {L : M3 K} (h : RightAngled L) {raw d : V3 K} (hd : MinImage L raw d) : Shortest L raw d := by
  obtain ⟨⟨m, hm⟩, s, hs, rfl⟩ := hd
  refine ⟨⟨m, hm⟩, ?_⟩
  rintro e ⟨m', he⟩
  have : e = cart L (fun k => s k - ((m' k - m k : ℤ) : K)) := by
    funext l
    have := hm l
    rw [he l]
    simp only [cart, Fin.sum_univ_three] at this ⊢
    push_cast
    linear_combination -this
  rw [this, norm2_right h, norm2_right h]
  apply Finset.sum_le_sum
  intro k _
  exact mul_le_mul_of_nonneg_right (sq_le_shift (hs k).1 (hs k).2 _) (norm2_nonneg _)

theorem inner_cart {L b : M3 K} (hb : FaceNormals L b) (s : V3 K) (k : Fin 3) : inner3 (cart L s) (b k) = s k := by
  have h : inner3 (cart L s) (b k) = ∑ r, s r * inner3 (L r) (b k) := by
    simp only [inner3, cart, Fin.sum_univ_three]
    ring
  rw [h]
  simp only [hb _ k, mul_ite, mul_one, mul_zero, Finset.sum_ite_eq', Finset.mem_univ, if_true]

theorem cart_normals {L b : M3 K} (hb : FaceNormals L b) (hL : NonSingular L) (d : V3 K) : cart L (fun k => inner3 d (b k)) = d := by
  have hd : det3 L ≠ 0 := by rw [det3_eq_det]; exact hL
  have h := vm_inv_right hd d
  have h1 : d = cart L (vm d (invFun L)) := h.symm
  conv_rhs => rw [h1]
  congr 1
  funext k
  conv_lhs => rw [h1]
  rw [inner_cart hb]

/-- An image within half of the narrowest width is the minimum image. -/
theorem minImage_of_small {L : M3 K} (hL : NonSingular L) {raw e : V3 K} (hi : Image L raw e) (hw : WithinHalfWidth L e) : MinImage L raw e := by
  obtain ⟨b, hb, hk⟩ := hw
  refine ⟨hi, fun k => inner3 e (b k), fun k => ?_, (cart_normals hb hL e).symm⟩
  have h1 := inner_sq_le e (b k)
  have h2 : inner3 e (b k) ^ 2 < (1 / 2 : K) ^ 2 := by linarith [hk k]
  have h3 := abs_lt_of_sq_lt_sq h2 (by norm_num)
  exact ⟨(abs_lt.mp h3).1.le, (abs_lt.mp h3).2⟩

/-- An image within half of the narrowest width is strictly shorter than every other image. -/
theorem shorter_of_small {L : M3 K} {raw e : V3 K} (hi : Image L raw e) (hw : WithinHalfWidth L e) {e' : V3 K} (hi' : Image L raw e') (hne : e' ≠ e) :
    norm2 e < norm2 e' := by
  obtain ⟨b, hb, hk⟩ := hw
  obtain ⟨m, hm⟩ := hi
  obtain ⟨m', hm'⟩ := hi'
  set R : V3 K := cart L fun k => ((m k - m' k : ℤ) : K) with hR
  have he : ∀ l, e' l = e l + R l := by
    intro l
    rw [hm, hm', hR]
    simp only [cart, Fin.sum_univ_three]
    push_cast
    ring
  obtain ⟨k, hmk⟩ : ∃ k, m k - m' k ≠ 0 := by
    by_contra hc
    push Not at hc
    apply hne
    funext l
    rw [he, hR]
    simp [cart, hc]
  have hin : inner3 R (b k) = ((m k - m' k : ℤ) : K) := inner_cart hb _ k
  have h1 : (1 : K) ≤ ((m k - m' k : ℤ) : K) ^ 2 := by
    have : 1 ≤ (m k - m' k) ^ 2 := by have := sq_pos_of_ne_zero hmk; omega
    exact_mod_cast this
  have h2 := inner_sq_le R (b k)
  rw [hin] at h2
  have hb0 := norm2_nonneg (b k)
  have h4 : 4 * norm2 e < norm2 R := by
    by_contra hc
    have := mul_le_mul_of_nonneg_right (not_lt.mp hc) hb0
    linarith [hk k]
  have hR0 : 0 < norm2 R := lt_of_le_of_lt (by have := norm2_nonneg e; linarith) h4
  have h5 := inner_sq_le e R
  have h6 : (2 * inner3 e R) ^ 2 < norm2 R ^ 2 := by nlinarith
  have h7 := (abs_lt.mp (abs_lt_of_sq_lt_sq h6 hR0.le)).1
  have h8 : norm2 e' = norm2 e + 2 * inner3 e R + norm2 R := by
    simp only [norm2, inner3, he, Fin.sum_univ_three]
    ring
  linarith

/-- **C113, what holds (right angles).** In cells whose lattice vectors are perpendicular to each other, also when they do not lie along the
Cartesian axes, every step that is added up is the shortest of all periodic images of the raw step.  Missing for the full property: cells
with other angles, see `C113_violated`. -/
theorem C113_right_angles_partial (F n : ℕ) (hF : 0 < F) (f : ℕ → ℕ → V3 K) (L : ℕ → M3 K) (hL : ∀ j < F, NonSingular (L j))
    (hR : ∀ j < F, RightAngled (L j)) :
    ∃ w a, getDisp (frames F n f) (cells F L) = .ok (w, a) ∧ a.n0 = n ∧ a.n1 = F - 1 ∧
      ∃ step : ℕ → ℕ → V3 K,
        (∀ i < n, ∀ j, j + 1 < F → Shortest (L (j + 1)) (fun l => cart (L (j + 1)) (f (j + 1) i) l - cart (L j) (f j i) l) (step i j)) ∧
        ∀ i < n, ∀ j < F - 1, ∀ l, a.get i j l = ∑ t ∈ Finset.range (j + 1), step i t l := by
  obtain ⟨w, a, h, h0, h1, step, hs, hg⟩ := C02_steps_are_minimum_images F n hF f L hL
  exact ⟨w, a, h, h0, h1, step, fun i hi j hj => shortest_right (hR _ hj) (hs i hi j hj), hg⟩

/-- **C113, what holds (any cell).** If every raw step has an image shorter than half of the narrowest width of the cell (the distance
between opposite faces), then the steps that are added up are these images, and each is strictly shorter than every other image of its
raw step.  Missing for the full property: longer steps in cells that are not right-angled, see `C113_violated`. -/
theorem C113_small_steps_partial (F n : ℕ) (hF : 0 < F) (f : ℕ → ℕ → V3 K) (L : ℕ → M3 K) (hL : ∀ j < F, NonSingular (L j)) (d : ℕ → ℕ → V3 K)
    (hd : ∀ i < n, ∀ j, j + 1 < F → Image (L (j + 1)) (fun l => cart (L (j + 1)) (f (j + 1) i) l - cart (L j) (f j i) l) (d i j) ∧
      WithinHalfWidth (L (j + 1)) (d i j)) :
    ∃ w a, getDisp (frames F n f) (cells F L) = .ok (w, a) ∧ a.n0 = n ∧ a.n1 = F - 1 ∧
      (∀ i < n, ∀ j, j + 1 < F → ∀ e, Image (L (j + 1)) (fun l => cart (L (j + 1)) (f (j + 1) i) l - cart (L j) (f j i) l) e → e ≠ d i j →
        norm2 (d i j) < norm2 e) ∧
      ∀ i < n, ∀ j < F - 1, ∀ l, a.get i j l = ∑ t ∈ Finset.range (j + 1), d i t l := by
  obtain ⟨w, a, h, h0, h1, step, hs, hg⟩ := C02_steps_are_minimum_images F n hF f L hL
  refine ⟨w, a, h, h0, h1, fun i hi j hj e he hne => shorter_of_small (hd i hi j hj).1 (hd i hi j hj).2 he hne, fun i hi j hj l => ?_⟩
  rw [hg i hi j hj l]
  apply Finset.sum_congr rfl
  intro t ht
  have htF : t + 1 < F := by have := Finset.mem_range.mp ht; omega
  have := C02_minimum_image_unique _ (hL _ htF) _ _ _ (hs i hi t htF) (minImage_of_small (hL _ htF) (hd i hi t htF).1 (hd i hi t htF).2)
  rw [this]

/-- A cell with an angle of 53 degrees and edges of length 10. -/
def exSkew : M3 ℚ := ![![10, 0, 0], ![6, 8, 0], ![0, 0, 10]]

/-- One atom that moves by 4/10 of the first two lattice vectors between two frames. -/
def exFar : ℕ → ℕ → V3 ℚ := fun j _ => if j = 0 then 0 else ![2 / 5, 2 / 5, 0]

/-- **C113, the full property is violated.** In a cell with edges of length 10 and an angle of 53 degrees the unwrapped step is
(6.4, 3.2, 0), although the image (-3.6, 3.2, 0) of the same raw step is shorter; the only notice is the warning. -/
theorem C113_violated :
    ∃ (L : M3 ℚ) (f : ℕ → ℕ → V3 ℚ) (a : Arr3 ℚ), NonSingular L ∧ getDisp (frames 2 1 f) (cells 2 fun _ => L) = .ok (true, a) ∧
      a.n0 = 1 ∧ a.n1 = 1 ∧ a.get 0 0 = ![32 / 5, 16 / 5, 0] ∧ Image L (fun l => cart L (f 1 0) l - cart L (f 0 0) l) ![-(18 / 5), 16 / 5, 0] ∧
      norm2 (![-(18 / 5), 16 / 5, 0] : V3 ℚ) < norm2 (a.get 0 0) ∧ ¬ Shortest L (fun l => cart L (f 1 0) l - cart L (f 0 0) l) (a.get 0 0) := by
  have hns : NonSingular exSkew := by rw [nonSingular_iff]; simp [det3, exSkew]
  obtain ⟨w, a, h, h0, h1, -⟩ := C02_steps_are_minimum_images 2 1 (by norm_num) exFar (fun _ => exSkew) (fun _ _ => hns)
  have hw : ((getDisp (frames 2 1 exFar) (cells 2 fun _ => exSkew)).toOption.map fun p => (p.1, p.2.get 0 0)) = some (true, ![32 / 5, 16 / 5, 0]) := by
    decide +kernel
  rw [h] at hw
  obtain ⟨rfl, hg⟩ : w = true ∧ a.get 0 0 = ![32 / 5, 16 / 5, 0] := by simpa [Except.toOption] using hw
  have hi : Image exSkew (fun l => cart exSkew (exFar 1 0) l - cart exSkew (exFar 0 0) l) ![-(18 / 5), 16 / 5, 0] :=
    ⟨![1, 0, 0], by decide +kernel⟩
  have hlt : norm2 (![-(18 / 5), 16 / 5, 0] : V3 ℚ) < norm2 (a.get 0 0) := by rw [hg]; decide +kernel
  exact ⟨exSkew, exFar, a, hns, h, h0, h1, hg, hi, hlt, fun hs => absurd (hs.2 _ hi) (not_le.mpr hlt)⟩

/-- A box turned by 53 degrees about the third axis. -/
def exTurned : M3 ℚ := ![![6, 8, 0], ![-8, 6, 0], ![0, 0, 10]]

example : ∃ w a, getDisp (frames 2 1 exFar) (cells 2 fun _ => exTurned) = .ok (w, a) ∧ a.n0 = 1 := by
  obtain ⟨w, a, h, h0, -⟩ := C113_right_angles_partial 2 1 (by norm_num) exFar (fun _ => exTurned)
    (fun _ _ => by rw [nonSingular_iff]; simp [det3, exTurned]; norm_num)
    (fun _ _ r c hrc => by fin_cases r <;> fin_cases c <;> simp_all [inner3, exTurned, Fin.sum_univ_three] <;> norm_num)
  exact ⟨w, a, h, h0⟩

/-- One atom that crosses a face of the skewed cell. -/
def exCross : ℕ → ℕ → V3 ℚ := fun j _ => if j = 0 then ![9 / 10, 0, 0] else ![1 / 10, 1 / 10, 0]

example : ∃ w a, getDisp (frames 2 1 exCross) (cells 2 fun _ => exSkew) = .ok (w, a) ∧ a.n1 = 1 ∧ a.get 0 0 0 = 13 / 5 := by
  obtain ⟨w, a, h, -, h1, -, hg⟩ := C113_small_steps_partial 2 1 (by norm_num) exCross (fun _ => exSkew)
    (fun _ _ => by rw [nonSingular_iff]; simp [det3, exSkew]) (fun _ _ => ![13 / 5, 4 / 5, 0]) (fun i hi j hj => by
      obtain rfl : j = 0 := by omega
      obtain rfl : i = 0 := by omega
      refine ⟨⟨![-1, 0, 0], by decide +kernel⟩,
        ![![1 / 10, -(3 / 40), 0], ![0, 1 / 8, 0], ![0, 0, 1 / 10]], 
        by unfold FaceNormals; decide +kernel, by decide +kernel⟩)
  refine ⟨w, a, h, h1, ?_⟩
  rw [hg 0 (by norm_num) 0 (by norm_num) 0]
  simp

end Kinisi
