import Verif.Model.DispFl
import Verif.Lemmas.Disp
import Verif.Spec.DispFl

/-!
# Error bounds for the rounded unwrapping
-/

set_option linter.unusedSectionVars false
set_option linter.unusedVariables false

namespace Kinisi
open Spec
variable {K : Type} [Field K] [LinearOrder K] [IsStrictOrderedRing K] [FloorRing K]

theorem vmFl_id (x : V3 K) (A : M3 K) : vmFl id x A = vm x A := by
  funext l
  simp [vmFl, vm, Fin.sum_univ_three]

theorem unwrapStepFl_id (a b : V3 K) (La Lb LbInv : M3 K) : unwrapStepFl id a b La Lb LbInv = unwrapStep a b La Lb LbInv := by
  funext l
  have h : wrappedDiffFl id a b La Lb = fun l => vm b Lb l - vm a La l := by funext l; simp [wrappedDiffFl, vmFl_id]
  simp only [unwrapStepFl, shiftFl, unwrapStep, h, vmFl_id, id]

theorem cumsumFl_id (s : ℕ → K) (j : ℕ) : cumsumFl id s j = ∑ t ∈ Finset.range (j + 1), s t := by
  induction j with
  | zero => simp [cumsumFl]
  | succ j ih => rw [Finset.sum_range_succ, ← ih]; rfl

/-- Without rounding this is `getDisp`. -/
theorem getDispFl_id (coords : List (List (V3 K))) (latt : List (M3 K)) : getDispFl id inv3 coords latt = getDisp coords latt := by
  unfold getDispFl getDisp
  simp only [cumsumFl_id, unwrapStepFl_id]
  cases coords <;> rfl

theorem _root_.Kinisi.Spec.RelErr.bound {fl : K → K} {ε : K} (h : RelErr fl ε) (hε : 0 ≤ ε) {t T : K} (ht : |t| ≤ T) : |fl t - t| ≤ ε * T :=
  le_trans (h t) (mul_le_mul_of_nonneg_left ht hε)

theorem abs_sub_le' {a b : K} : |a - b| ≤ |a| + |b| := by
  rw [sub_eq_add_neg]
  exact le_trans (abs_add_le _ _) (by rw [abs_neg])

theorem abs_le_of_near {a b e T : K} (h : |a - b| ≤ e) (hb : |b| ≤ T) : |a| ≤ T + e := by
  have := abs_add_le (a - b) b
  rw [sub_add_cancel] at this
  linarith

theorem abs_trans {a b c e f : K} (h : |a - b| ≤ e) (h' : |b - c| ≤ f) : |a - c| ≤ e + f := by
  have := abs_add_le (a - b) (b - c)
  rw [sub_add_sub_cancel] at this
  linarith

theorem vm_bound {x : V3 K} {A : M3 K} {X Y : K} (hx : ∀ k, |x k| ≤ X) (hA : ∀ k l, |A k l| ≤ Y) (l : Fin 3) : |vm x A l| ≤ 3 * (X * Y) := by
  have hX : 0 ≤ X := le_trans (abs_nonneg _) (hx 0)
  have h : ∀ k, |x k * A k l| ≤ X * Y := fun k => by
    rw [abs_mul]; exact mul_le_mul (hx k) (hA k l) (abs_nonneg _) hX
  unfold vm
  rw [Fin.sum_univ_three]
  have h1 := abs_add_le (x 0 * A 0 l + x 1 * A 1 l) (x 2 * A 2 l)
  have h2 := abs_add_le (x 0 * A 0 l) (x 1 * A 1 l)
  have := h 0
  have := h 1
  have := h 2
  linarith

/-- Error of a three-term product sum. -/
theorem vmFl_error {fl : K → K} {ε : K} (h : RelErr fl ε) (hε : 0 ≤ ε) (hε' : ε ≤ 1 / 64) {x : V3 K} {A : M3 K} {X Y : K} (hx : ∀ k, |x k| ≤ X)
    (hA : ∀ k l, |A k l| ≤ Y) (l : Fin 3) : |vmFl fl x A l - vm x A l| ≤ 9 * (ε * (X * Y)) := by
  have hX : 0 ≤ X := le_trans (abs_nonneg _) (hx 0)
  have hY : 0 ≤ Y := le_trans (abs_nonneg _) (hA 0 0)
  have hp : ∀ k, |x k * A k l| ≤ X * Y := fun k => by
    rw [abs_mul]; exact mul_le_mul (hx k) (hA k l) (abs_nonneg _) hX
  set Z := X * Y with hZ
  have hZ0 : 0 ≤ Z := mul_nonneg hX hY
  set E := ε * Z with hE
  have hE0 : 0 ≤ E := mul_nonneg hε hZ0
  have hE1 : E ≤ Z / 64 := by rw [hE]; nlinarith
  have q : ∀ k, |fl (x k * A k l) - x k * A k l| ≤ E := fun k => h.bound hε (hp k)
  have q' : ∀ k, |fl (x k * A k l)| ≤ Z + E := fun k => abs_le_of_near (q k) (hp k)
  have s1 : |fl (x 0 * A 0 l) + fl (x 1 * A 1 l)| ≤ 65 / 32 * Z := by
    have := abs_add_le (fl (x 0 * A 0 l)) (fl (x 1 * A 1 l))
    have := q' 0
    have := q' 1
    linarith
  have e1 := h.bound hε s1
  rw [show ε * (65 / 32 * Z) = 65 / 32 * E by rw [hE]; ring] at e1
  have s2 : |fl (fl (x 0 * A 0 l) + fl (x 1 * A 1 l)) + fl (x 2 * A 2 l)| ≤ 31 / 10 * Z := by
    have := abs_add_le (fl (fl (x 0 * A 0 l) + fl (x 1 * A 1 l))) (fl (x 2 * A 2 l))
    have := abs_le_of_near e1 s1
    have := q' 2
    linarith
  have e2 := h.bound hε s2
  rw [show ε * (31 / 10 * Z) = 31 / 10 * E by rw [hE]; ring] at e2
  unfold vmFl vm
  rw [Fin.sum_univ_three]
  have q0 := abs_le.mp (q 0)
  have q1 := abs_le.mp (q 1)
  have q2 := abs_le.mp (q 2)
  have f1 := abs_le.mp e1
  have f2 := abs_le.mp e2
  rw [abs_le]
  constructor <;> linarith

/-- Change of a product sum with its arguments. -/
theorem vm_near {x x' : V3 K} {A A' : M3 K} {e f X Y : K} (hx : ∀ k, |x' k - x k| ≤ e) (hA : ∀ k l, |A' k l - A k l| ≤ f) (hX : ∀ k, |x k| ≤ X)
    (hY : ∀ k l, |A' k l| ≤ Y) (l : Fin 3) : |vm x' A' l - vm x A l| ≤ 3 * (e * Y + X * f) := by
  have hX0 : 0 ≤ X := le_trans (abs_nonneg _) (hX 0)
  have he : 0 ≤ e := le_trans (abs_nonneg _) (hx 0)
  have h : ∀ k, |x' k * A' k l - x k * A k l| ≤ e * Y + X * f := by
    intro k
    have e0 : x' k * A' k l - x k * A k l = (x' k - x k) * A' k l + x k * (A' k l - A k l) := by ring
    rw [e0]
    refine le_trans (abs_add_le _ _) (add_le_add ?_ ?_)
    · rw [abs_mul]; exact mul_le_mul (hx k) (hY k l) (abs_nonneg _) he
    · rw [abs_mul]; exact mul_le_mul (hX k) (hA k l) (abs_nonneg _) hX0
  unfold vm
  rw [Fin.sum_univ_three, Fin.sum_univ_three]
  have h0 := abs_le.mp (h 0)
  have h1 := abs_le.mp (h 1)
  have h2 := abs_le.mp (h 2)
  rw [abs_le]
  constructor <;> linarith

/-- Error of `wrapped_diff`. -/
theorem wrappedDiffFl_error {fl : K → K} {ε : K} (h : RelErr fl ε) (hε : 0 ≤ ε) (hε' : ε ≤ 1 / 64) {a b : V3 K} {La Lb : M3 K} {C A : K}
    (ha : ∀ k, |a k| ≤ C) (hb : ∀ k, |b k| ≤ C) (hLa : ∀ k l, |La k l| ≤ A) (hLb : ∀ k l, |Lb k l| ≤ A) (l : Fin 3) :
    |wrappedDiffFl fl a b La Lb l - (vm b Lb l - vm a La l)| ≤ 25 * (ε * (C * A)) ∧ |vm b Lb l - vm a La l| ≤ 6 * (C * A) := by
  have hC : 0 ≤ C := le_trans (abs_nonneg _) (ha 0)
  have hA : 0 ≤ A := le_trans (abs_nonneg _) (hLa 0 0)
  have ea := vmFl_error h hε hε' ha hLa l
  have eb := vmFl_error h hε hε' hb hLb l
  have ba := vm_bound ha hLa l
  have bb := vm_bound hb hLb l
  set Z := C * A
  have hZ0 : 0 ≤ Z := mul_nonneg hC hA
  set E := ε * Z with hE
  have hE0 : 0 ≤ E := mul_nonneg hε hZ0
  have hE1 : E ≤ Z / 64 := by rw [hE]; nlinarith
  have fa := abs_le.mp ea
  have fb := abs_le.mp eb
  have ga := abs_le.mp ba
  have gb := abs_le.mp bb
  have t : |vmFl fl b Lb l - vmFl fl a La l| ≤ 63 / 10 * Z := by
    rw [abs_le]; constructor <;> linarith
  have et := h.bound hε t
  rw [show ε * (63 / 10 * Z) = 63 / 10 * E by rw [hE]; ring] at et
  have ft := abs_le.mp et
  constructor
  · unfold wrappedDiffFl
    rw [abs_le]; constructor <;> linarith
  · rw [abs_le]; constructor <;> linarith

/-- Error of the fractional step before the floor. -/
theorem fracFl_error {fl : K → K} {ε : K} (h : RelErr fl ε) (hε : 0 ≤ ε) (hε' : ε ≤ 1 / 64) {a b : V3 K} {La Lb Linv LinvFl : M3 K} {C A B κ : K}
    (ha : ∀ k, |a k| ≤ C) (hb : ∀ k, |b k| ≤ C) (hLa : ∀ k l, |La k l| ≤ A) (hLb : ∀ k l, |Lb k l| ≤ A) (hB : ∀ k l, |Linv k l| ≤ B)
    (hκ : ∀ k l, |LinvFl k l - Linv k l| ≤ κ) (k : Fin 3) :
    |fl (vmFl fl (wrappedDiffFl fl a b La Lb) LinvFl k + 1 / 2) - (vm (fun l => vm b Lb l - vm a La l) Linv k + 1 / 2)| ≤ imageMargin ε C A B κ ∧
      |vm (fun l => vm b Lb l - vm a La l) Linv k| ≤ 18 * (C * A) * B := by
  have hC : 0 ≤ C := le_trans (abs_nonneg _) (ha 0)
  have hA : 0 ≤ A := le_trans (abs_nonneg _) (hLa 0 0)
  have hB0 : 0 ≤ B := le_trans (abs_nonneg _) (hB 0 0)
  have hκ0 : 0 ≤ κ := le_trans (abs_nonneg _) (hκ 0 0)
  have hd := fun l => wrappedDiffFl_error h hε hε' ha hb hLa hLb l
  unfold imageMargin
  set Z := C * A
  have hZ0 : 0 ≤ Z := mul_nonneg hC hA
  set E := ε * Z with hE
  have hE0 : 0 ≤ E := mul_nonneg hε hZ0
  have hE1 : E ≤ Z / 64 := by rw [hE]; nlinarith
  have hB' : ∀ k l, |LinvFl k l| ≤ B + κ := fun k l => abs_le_of_near (hκ k l) (hB k l)
  set B' := B + κ with hB'd
  have hB'0 : 0 ≤ B' := add_nonneg hB0 hκ0
  have hdb : ∀ l, |wrappedDiffFl fl a b La Lb l| ≤ 7 * Z := fun l => by
    have := abs_le_of_near (hd l).1 (hd l).2
    linarith
  have e1 := vmFl_error h hε hε' hdb hB' k
  rw [show ε * (7 * Z * B') = 7 * (E * B') by rw [hE]; ring] at e1
  have e2 := vm_near (fun l => (hd l).1) hκ (fun l => (hd l).2) hB' k
  have hv := vm_bound (fun l => (hd l).2) hB k
  set v := vm (fun l => vm b Lb l - vm a La l) Linv k
  have e3 := abs_trans e1 e2
  set G := E * B' with hG
  set H := Z * κ with hH
  have hG0 : 0 ≤ G := mul_nonneg hE0 hB'0
  have hH0 : 0 ≤ H := mul_nonneg hZ0 hκ0
  have e4 : |vmFl fl (wrappedDiffFl fl a b La Lb) LinvFl k - v| ≤ 138 * G + 18 * H := by
    have : 9 * (7 * G) + 3 * (25 * E * B' + 6 * Z * κ) = 138 * G + 18 * H := by rw [hG, hH]; ring
    linarith
  have hvb : |v| ≤ 18 * (Z * B') := by
    have : Z * B ≤ Z * B' := mul_le_mul_of_nonneg_left (by rw [hB'd]; linarith) hZ0
    have h6 : 3 * (6 * Z * B) = 18 * (Z * B) := by ring
    linarith
  have t : |vmFl fl (wrappedDiffFl fl a b La Lb) LinvFl k + 1 / 2| ≤ 18 * (Z * B') + (138 * G + 18 * H) + 1 / 2 := by
    have e5 := abs_le_of_near e4 hvb
    have := abs_add_le (vmFl fl (wrappedDiffFl fl a b La Lb) LinvFl k) (1 / 2)
    rw [abs_of_pos (by norm_num : (0 : K) < 1 / 2)] at this
    linarith
  have et := h.bound hε t
  have hεG : ε * G ≤ G / 64 := by nlinarith
  have hεH : ε * H ≤ H / 64 := by nlinarith
  have e6 : ε * (18 * (Z * B') + (138 * G + 18 * H) + 1 / 2) = 18 * G + 138 * (ε * G) + 18 * (ε * H) + ε / 2 := by
    rw [hG, hE]; ring
  rw [e6] at et
  have f4 := abs_le.mp e4
  have ft := abs_le.mp et
  constructor
  · have h7 : 160 * E * B' + 19 * Z * κ + ε = 160 * G + 19 * H + ε := by rw [hG, hH]; ring
    rw [h7, abs_le]
    constructor <;> linarith
  · have h6 : 3 * (6 * Z * B) = 18 * Z * B := by ring
    linarith

/-- Away from the half-integers the computed image is the right one. -/
theorem shiftFl_eq {fl : K → K} {ε : K} (h : RelErr fl ε) (hε : 0 ≤ ε) (hε' : ε ≤ 1 / 64) {a b : V3 K} {La Lb Linv LinvFl : M3 K} {C A B κ : K}
    (ha : ∀ k, |a k| ≤ C) (hb : ∀ k, |b k| ≤ C) (hLa : ∀ k l, |La k l| ≤ A) (hLb : ∀ k l, |Lb k l| ≤ A) (hB : ∀ k l, |Linv k l| ≤ B)
    (hκ : ∀ k l, |LinvFl k l - Linv k l| ≤ κ) (k : Fin 3) (n : ℤ)
    (hn : |vm (fun l => vm b Lb l - vm a La l) Linv k - n| < 1 / 2 - imageMargin ε C A B κ) : shiftFl fl a b La Lb LinvFl k = n := by
  have e := abs_le.mp (fracFl_error h hε hε' ha hb hLa hLb hB hκ k).1
  have hn' := abs_lt.mp hn
  unfold shiftFl
  rw [Int.floor_eq_iff]
  constructor <;> linarith

theorem unwrapStepFl_error {fl : K → K} {ε : K} (h : RelErr fl ε) (hε : 0 ≤ ε) (hε' : ε ≤ 1 / 64) {a b : V3 K} {La Lb Linv LinvFl : M3 K} {C A B κ : K}
    (ha : ∀ k, |a k| ≤ C) (hb : ∀ k, |b k| ≤ C) (hLa : ∀ k l, |La k l| ≤ A) (hLb : ∀ k l, |Lb k l| ≤ A) (hB : ∀ k l, |Linv k l| ≤ B)
    (hκ : ∀ k l, |LinvFl k l - Linv k l| ≤ κ) (hinv : ∀ x : V3 K, vm (vm x Linv) Lb = x) (n : Fin 3 → ℤ)
    (hn : ∀ k, |vm (fun l => vm b Lb l - vm a La l) Linv k - n k| < 1 / 2 - imageMargin ε C A B κ) (l : Fin 3) :
    |unwrapStepFl fl a b La Lb LinvFl l - (vm b Lb l - vm a La l - vm (fun k => (n k : K)) Lb l)| ≤ stepError ε C A B := by
  have hC : 0 ≤ C := le_trans (abs_nonneg _) (ha 0)
  have hA : 0 ≤ A := le_trans (abs_nonneg _) (hLa 0 0)
  have hB0 : 0 ≤ B := le_trans (abs_nonneg _) (hB 0 0)
  have hκ0 : 0 ≤ κ := le_trans (abs_nonneg _) (hκ 0 0)
  have hm0 : 0 ≤ imageMargin ε C A B κ := by unfold imageMargin; positivity
  have hsh : (fun k => (shiftFl fl a b La Lb LinvFl k : K)) = fun k => (n k : K) := by
    funext k
    rw [shiftFl_eq h hε hε' ha hb hLa hLb hB hκ k (n k) (hn k)]
  have hnb : ∀ k, |(n k : K)| ≤ 18 * (C * A) * B + 1 := fun k => by
    have h1 := (fracFl_error h hε hε' ha hb hLa hLb hB hκ k).2
    have h2 := hn k
    rw [abs_sub_comm] at h2
    have := abs_le_of_near h2.le h1
    linarith
  have ed := (wrappedDiffFl_error h hε hε' ha hb hLa hLb l).1
  have en := vmFl_error h hε hε' hnb hLb l
  -- the exact step is the image of a vector within half a cell
  have hex : |vm b Lb l - vm a La l - vm (fun k => (n k : K)) Lb l| ≤ 3 * (1 / 2 * A) := by
    have : vm b Lb l - vm a La l - vm (fun k => (n k : K)) Lb l = vm (fun k => vm (fun l => vm b Lb l - vm a La l) Linv k - n k) Lb l := by
      have h1 := congrFun (hinv (fun l => vm b Lb l - vm a La l)) l
      have h2 : vm (fun k => vm (fun l => vm b Lb l - vm a La l) Linv k - n k) Lb l =
          vm (vm (fun l => vm b Lb l - vm a La l) Linv) Lb l - vm (fun k => (n k : K)) Lb l := by
        rw [vm, vm, vm, ← Finset.sum_sub_distrib]
        exact Finset.sum_congr rfl fun k _ => by ring
      rw [h2, h1]
    rw [this]
    refine vm_bound (fun k => ?_) hLb l
    have := hn k
    linarith
  unfold unwrapStepFl stepError
  rw [hsh]
  set Z := C * A
  set S := 18 * Z * B + 1
  have hS0 : 0 ≤ S := by positivity
  set E := ε * Z with hE
  set Q := ε * (S * A) with hQ
  have hE0 : 0 ≤ E := by positivity
  have hQ0 : 0 ≤ Q := by positivity
  have fd := abs_le.mp ed
  have fn := abs_le.mp en
  have fx := abs_le.mp hex
  have t : |wrappedDiffFl fl a b La Lb l - vmFl fl (fun k => (n k : K)) Lb l| ≤ 3 / 2 * A + 25 * E + 9 * Q := by
    rw [abs_le]; constructor <;> linarith
  have et := h.bound hε t
  have hεE : ε * E ≤ E / 64 := by nlinarith
  have hεQ : ε * Q ≤ Q / 64 := by nlinarith
  have e6 : ε * (3 / 2 * A + 25 * E + 9 * Q) = 3 / 2 * (ε * A) + 25 * (ε * E) + 9 * (ε * Q) := by ring
  rw [e6] at et
  have ft := abs_le.mp et
  have hεA : 0 ≤ ε * A := by positivity
  have e7 : ε * A * (26 * C + 10 * S + 2) = 26 * E + 10 * Q + 2 * (ε * A) := by rw [hE, hQ]; ring
  rw [e7, abs_le]
  constructor <;> linarith

/-- Errors of a running sum grow linearly. -/
theorem cumsumFl_error {fl : K → K} {ε : K} (h : RelErr fl ε) (hε : 0 ≤ ε) {s : ℕ → K} {x : ℕ → K} {e M : K} {F : ℕ} (hM : ∀ j < F, |∑ t ∈ Finset.range (j + 1), x t| ≤ M)
    (hs : ∀ j < F, |s j - x j| ≤ e) (hF : ε * (2 * F) ≤ 1) (j : ℕ) (hj : j < F) :
    |cumsumFl fl s j - ∑ t ∈ Finset.range (j + 1), x t| ≤ 2 * (j + 1) * (e + ε * M) := by
  have he : 0 ≤ e := le_trans (abs_nonneg _) (hs j hj)
  have hM0 : 0 ≤ M := le_trans (abs_nonneg _) (hM j hj)
  have hX : 0 ≤ e + ε * M := by positivity
  induction j with
  | zero =>
    simp only [cumsumFl, zero_add, Finset.sum_range_one, Nat.cast_zero]
    have := hs 0 hj
    have : 0 ≤ ε * M := by positivity
    linarith
  | succ j ih =>
    have ih := ih (by omega)
    set X := e + ε * M with hXd
    rw [Finset.sum_range_succ]
    have hm := hM (j + 1) hj
    rw [Finset.sum_range_succ] at hm
    set y := ∑ t ∈ Finset.range (j + 1), x t
    have hsj := hs (j + 1) hj
    have e1 : |cumsumFl fl s j + s (j + 1) - (y + x (j + 1))| ≤ 2 * (j + 1) * X + e := by
      have := abs_add_le (cumsumFl fl s j - y) (s (j + 1) - x (j + 1))
      rw [show cumsumFl fl s j - y + (s (j + 1) - x (j + 1)) = cumsumFl fl s j + s (j + 1) - (y + x (j + 1)) by ring] at this
      linarith
    have e2 := h.bound hε (abs_le_of_near e1 hm)
    have e3 := abs_trans e2 e1
    refine le_trans e3 ?_
    have hjF : ((j + 1 : ℕ) : K) + 1 ≤ F := by exact_mod_cast hj
    have hj0 : (0 : K) ≤ j := Nat.cast_nonneg j
    push_cast at hjF ⊢
    have e4 : ε * (2 * (j + 1) * X + e) ≤ X := by
      have h1 : 2 * (j + 1) * X + e ≤ 2 * F * X := by
        have : e ≤ X := by rw [hXd]; have : 0 ≤ ε * M := by positivity
                           linarith
        nlinarith
      calc ε * (2 * (j + 1) * X + e) ≤ ε * (2 * F * X) := mul_le_mul_of_nonneg_left h1 hε
        _ = ε * (2 * F) * X := by ring
        _ ≤ 1 * X := mul_le_mul_of_nonneg_right hF hX
        _ = X := one_mul X
    have e5 : ε * (M + (2 * (j + 1) * X + e)) = ε * M + ε * (2 * (j + 1) * X + e) := by ring
    rw [e5]
    have e6 : e + ε * M = X := rfl
    linarith

end Kinisi
