import Verif.Lemmas.DispFl
import Verif.Lemmas.Float
import Mathlib.Tactic.IntervalCases

/-!
# C91: unwrapping in floating point arithmetic
-/

set_option linter.unusedSectionVars false
set_option linter.unusedVariables false

namespace Kinisi
open Spec
variable {K : Type} [Field K] [LinearOrder K] [IsStrictOrderedRing K] [FloorRing K]

theorem cart_vm (L : M3 K) (x : V3 K) : cart L x = vm x L := rfl

theorem inverse_right {L Linv : M3 K} (h : IsInverse L Linv) (x : V3 K) : vm (vm x L) Linv = x := by
  funext l
  unfold vm
  have : ∀ l, ∑ k, (∑ i, x i * L i k) * Linv k l = ∑ i, x i * ∑ k, L i k * Linv k l := by
    intro l
    simp only [Fin.sum_univ_three]
    ring
  rw [this]
  simp only [h _ l]
  simp

theorem inverse_comm {L Linv : M3 K} (h : IsInverse L Linv) : IsInverse Linv L := by
  have h1 : Matrix.of L * Matrix.of Linv = 1 := by
    ext i j
    rw [Matrix.mul_apply, Matrix.one_apply]
    exact h i j
  have h2 := mul_eq_one_comm.mp h1
  intro i j
  have := congrFun (congrFun h2 i) j
  rw [Matrix.mul_apply, Matrix.one_apply] at this
  exact this

theorem inverse_left {L Linv : M3 K} (h : IsInverse L Linv) (x : V3 K) : vm (vm x Linv) L = x := inverse_right (inverse_comm h) x

theorem relErr_of_rounding {fl : K → K} {N : ℕ} (hN : 0 < N) (h : Rounding fl N) : RelErr fl (1 / (N : K)) := by
  intro x
  have hN' : (0 : K) < N := by exact_mod_cast hN
  rw [one_div, inv_mul_eq_div, le_div_iff₀ hN']
  exact h.rel x

/-- **C91, images.** If the exact fractional step is within `1/2 - margin` of the whole cells `n`, the whole cells subtracted in floating point arithmetic are `n`, as in exact arithmetic;
the margin is of the order of the rounding error.  Any cells before and after the step. -/
theorem C91_images {fl : K → K} {ε : K} (h : RelErr fl ε) (hε : 0 ≤ ε) (hε' : ε ≤ 1 / 64) (a b : V3 K) (La Lb Linv LinvFl : M3 K) (C A B κ : K) (ha : ∀ k, |a k| ≤ C) (hb : ∀ k, |b k| ≤ C)
    (hLa : ∀ k l, |La k l| ≤ A) (hLb : ∀ k l, |Lb k l| ≤ A) (hB : ∀ k l, |Linv k l| ≤ B) (hκ : ∀ k l, |LinvFl k l - Linv k l| ≤ κ) (hinv : IsInverse Lb Linv) (n : Fin 3 → ℤ)
    (hn : ∀ k, |cart Linv (fun l => cart Lb b l - cart La a l) k - n k| < 1 / 2 - imageMargin ε C A B κ) :
    (∀ k, shiftFl fl a b La Lb LinvFl k = n k) ∧ (∀ k, shiftFl id a b La Lb Linv k = n k) ∧
    ∀ l, |unwrapStepFl fl a b La Lb LinvFl l - (cart Lb b l - cart La a l - cart Lb (fun k => (n k : K)) l)| ≤ stepError ε C A B := by
  have hm0 : 0 ≤ imageMargin ε C A B κ := by
    have hC : 0 ≤ C := le_trans (abs_nonneg _) (ha 0)
    have hA : 0 ≤ A := le_trans (abs_nonneg _) (hLa 0 0)
    have hB0 : 0 ≤ B := le_trans (abs_nonneg _) (hB 0 0)
    have hκ0 : 0 ≤ κ := le_trans (abs_nonneg _) (hκ 0 0)
    unfold imageMargin; positivity
  refine ⟨fun k => shiftFl_eq h hε hε' ha hb hLa hLb hB hκ k (n k) (hn k), fun k => ?_,
    fun l => unwrapStepFl_error h hε hε' ha hb hLa hLb hB hκ (inverse_left hinv) n hn l⟩
  have e : wrappedDiffFl id a b La Lb = fun l => vm b Lb l - vm a La l := by funext l; simp [wrappedDiffFl, vmFl_id]
  unfold shiftFl
  rw [e, vmFl_id, id, Int.floor_eq_iff]
  have h1 := abs_lt.mp (hn k)
  have h2 : cart Linv (fun l => cart Lb b l - cart La a l) k = vm (fun l => vm b Lb l - vm a La l) Linv k := rfl
  rw [h2] at h1
  constructor <;> linarith

/-- **C91, path.** Unwrapping in floating point arithmetic in a fixed cell: if the true path stays at least the margin below half a cell per step, `get_disp` returns the true displacement up to an error that
grows only linearly with the number of frames, whatever the stored images. -/
theorem C91_path {fl : K → K} {ε : K} (h : RelErr fl ε) (hε : 0 ≤ ε) (hε' : ε ≤ 1 / 64) (inv : M3 K → PyM (M3 K)) (F n : ℕ) (hF : 0 < F) (hFε : ε * (2 * F) ≤ 1) (L Linv LinvFl : M3 K)
    (hinv : IsInverse L Linv) (hlib : inv L = .ok LinvFl) (u : ℕ → ℕ → V3 K) (m : ℕ → ℕ → Fin 3 → ℤ) (C A B κ M : K)
    (hC : ∀ i < n, ∀ j < F, ∀ k, |u i j k + m i j k| ≤ C) (hA : ∀ k l, |L k l| ≤ A) (hB : ∀ k l, |Linv k l| ≤ B) (hκ : ∀ k l, |LinvFl k l - Linv k l| ≤ κ)
    (hM : ∀ i < n, ∀ j < F, ∀ l, |cart L (fun k => u i j k - u i 0 k) l| ≤ M)
    (hstep : ∀ i < n, ∀ j, j + 1 < F → ∀ k, |u i (j + 1) k - u i j k| < 1 / 2 - imageMargin ε C A B κ) :
    ∃ w a, getDispFl fl inv (frames F n fun j i => fun k => u i j k + (m i j k : K)) (cells F fun _ => L) = .ok (w, a) ∧ a.n0 = n ∧ a.n1 = F - 1 ∧
      ∀ i < n, ∀ j < F - 1, ∀ l, |a.get i j l - cart L (fun k => u i (j + 1) k - u i 0 k) l| ≤ 2 * (j + 1) * (stepError ε C A B + ε * M) := by
  obtain ⟨G, rfl⟩ : ∃ G, F = G + 1 := ⟨F - 1, by omega⟩
  set x : ℕ → ℕ → V3 K := fun j i => fun k => u i j k + (m i j k : K) with hx
  have hcons : frames (G + 1) n x = ((List.range n).map fun i => x 0 i) :: (frames (G + 1) n x).tail := by
    unfold frames
    rw [List.range_succ_eq_map]
    simp
  have hall : (frames (G + 1) n x).all (fun c => decide (c.length = ((List.range n).map fun i => x 0 i).length)) = true := by
    simp [frames]
  have hinvs : (cells (G + 1) fun _ => L).mapM inv = .ok ((cells (G + 1) fun _ => L).map fun _ => LinvFl) :=
    mapM_except_ok inv (fun _ => LinvFl) _ (by
      intro a ha
      obtain ⟨j, -, rfl⟩ := List.mem_map.1 ha
      exact hlib)
  have hlen : (frames (G + 1) n x).length = (cells (G + 1) fun _ => L).length := by simp [frames, cells]
  refine ⟨triclinicTest (cells (G + 1) fun _ => L), ⟨n, G, fun i j l => cumsumFl fl (fun t => unwrapStepFl fl (((frames (G + 1) n x).getD t []).getD i 0)
    (((frames (G + 1) n x).getD (t + 1) []).getD i 0) ((cells (G + 1) fun _ => L).getD t 0) ((cells (G + 1) fun _ => L).getD (t + 1) 0)
    (((cells (G + 1) fun _ => L).map fun _ => LinvFl).getD (t + 1) 0) l) j⟩, ?_, rfl, rfl, ?_⟩
  · unfold getDispFl
    conv_lhs => rw [hcons]
    simp only
    rw [← hcons, if_pos hall, hinvs]
    simp only [bind, Except.bind]
    rw [if_neg (by simpa using hlen), frames_length]
    simp
  · intro i hi j hj l
    simp only
    have hj' : j < G := by simpa using hj
    -- the exact step
    have hsum : ∀ j, ∑ t ∈ Finset.range (j + 1), cart L (fun k => u i (t + 1) k - u i t k) l = cart L (fun k => u i (j + 1) k - u i 0 k) l := by
      intro j
      induction j with
      | zero => simp
      | succ j ih =>
        rw [Finset.sum_range_succ, ih]
        unfold cart
        rw [← Finset.sum_add_distrib]
        exact Finset.sum_congr rfl fun k _ => by ring
    have key := cumsumFl_error h hε (F := G) (s := fun t => unwrapStepFl fl (((frames (G + 1) n x).getD t []).getD i 0)
        (((frames (G + 1) n x).getD (t + 1) []).getD i 0) ((cells (G + 1) fun _ => L).getD t 0) ((cells (G + 1) fun _ => L).getD (t + 1) 0)
        (((cells (G + 1) fun _ => L).map fun _ => LinvFl).getD (t + 1) 0) l) (x := fun t => cart L (fun k => u i (t + 1) k - u i t k) l) (e := stepError ε C A B) (M := M)
      (fun j hj => by rw [hsum]; exact hM i hi (j + 1) (by omega) l) ?_ (by
        refine le_trans (mul_le_mul_of_nonneg_left ?_ hε) hFε
        push_cast
        linarith) j hj'
    · rw [hsum] at key
      exact key
    · intro t ht
      have e1 : ((cells (G + 1) fun _ => L).map fun _ => LinvFl).getD (t + 1) 0 = LinvFl := by
        rw [List.getD_eq_getElem?_getD, List.getElem?_map, List.getElem?_eq_getElem (by simp [cells]; omega)]
        rfl
      rw [frames_getD _ _ _ hi (by omega), frames_getD _ _ _ hi (by omega), cells_getD _ _ (by omega), cells_getD _ _ (by omega), e1]
      have hv : ∀ k, vm (fun l => vm (x (t + 1) i) L l - vm (x t i) L l) Linv k = (u i (t + 1) k - u i t k) + ((m i (t + 1) k - m i t k : ℤ) : K) := by
        intro k
        have e2 : (fun l => vm (x (t + 1) i) L l - vm (x t i) L l) = vm (fun k => x (t + 1) i k - x t i k) L := by
          funext l
          unfold vm
          rw [← Finset.sum_sub_distrib]
          exact Finset.sum_congr rfl fun k _ => by ring
        rw [e2, inverse_right hinv]
        simp only [hx]
        push_cast
        ring
      have := unwrapStepFl_error h hε hε' (hC i hi t (by omega)) (hC i hi (t + 1) (by omega)) hA hA hB hκ (inverse_left hinv)
        (fun k => m i (t + 1) k - m i t k) (fun k => by
          have hv' : vm (fun l => vm (fun k => u i (t + 1) k + (m i (t + 1) k : K)) L l - vm (fun k => u i t k + (m i t k : K)) L l) Linv k =
            (u i (t + 1) k - u i t k) + ((m i (t + 1) k - m i t k : ℤ) : K) := hv k
          rw [hv', add_sub_cancel_right]
          exact hstep i hi t (by omega) k) l
      convert this using 3
      unfold cart vm
      rw [← Finset.sum_sub_distrib, ← Finset.sum_sub_distrib]
      exact Finset.sum_congr rfl fun k _ => by push_cast; ring

/-- A box of 10.1, binary64, frames every 0.4 of the box. -/
def exFlBox : M3 ℚ := fun i j => if i = j then fl64 (101 / 10) else 0

/-- Its exact and its computed inverse. -/
def exFlInv : M3 ℚ := fun i j => if i = j then 1 / fl64 (101 / 10) else 0
def exFlInv64 : M3 ℚ := fun i j => if i = j then fl64 (1 / fl64 (101 / 10)) else 0

/-- The hypotheses (of `C91_images` as well) hold in binary64 for coordinates in the cell, four frames, steps of 0.4 cells; the margin is below 10⁻¹². -/
example : RelErr fl64 (1 / (2 ^ 53 : ℕ) : ℚ) ∧ (1 / (2 ^ 53 : ℕ) : ℚ) * (2 * (4 : ℕ)) ≤ 1 ∧ IsInverse exFlBox exFlInv ∧
    (∀ j : ℕ, j < 4 → ∀ k : Fin 3, |(2 / 5 * (j : ℚ)) + (-(⌊(2 / 5 * (j : ℚ))⌋) : ℤ)| ≤ 1) ∧ (∀ k l, |exFlBox k l| ≤ 11) ∧ (∀ k l, |exFlInv k l| ≤ 1 / 10) ∧
    (∀ k l, |exFlInv64 k l - exFlInv k l| ≤ 1 / 10 ^ 17) ∧ imageMargin (1 / (2 ^ 53 : ℕ) : ℚ) 1 11 (1 / 10) (1 / 10 ^ 17) < 1 / 10 ^ (12 : ℕ) ∧
    (∀ j : ℕ, ∀ k : Fin 3, |2 / 5 * ((j + 1 : ℕ) : ℚ) - 2 / 5 * (j : ℚ)| < 1 / 2 - imageMargin (1 / (2 ^ 53 : ℕ) : ℚ) 1 11 (1 / 10) (1 / 10 ^ 17)) := by
  refine ⟨relErr_of_rounding (by norm_num) rounding_fl64, by norm_num, by unfold IsInverse; decide +kernel, ?_, by decide +kernel, by decide +kernel, by decide +kernel,
    by unfold imageMargin; norm_num, ?_⟩
  · intro j hj k
    interval_cases j <;> decide +kernel
  · intro j k
    have e : (2 / 5 * ((j + 1 : ℕ) : ℚ) - 2 / 5 * (j : ℚ)) = 2 / 5 := by push_cast; ring
    rw [e]
    unfold imageMargin
    norm_num

/-- The run itself: displacements 4.04, 8.08, 12.12 along each axis up to rounding, although the stored coordinates are wrapped. -/
example : (getDispFl fl64 (fun _ => .ok exFlInv64) (frames 4 1 fun j _ => fun _ => fl64 (2 / 5 * (j : ℚ) + (-(⌊(2 / 5 * (j : ℚ))⌋) : ℤ))) (cells 4 fun _ => exFlBox)).toOption.map
    (fun r => (List.range 3).map fun j : ℕ => decide (|r.2.get 0 j 0 - 404 / 100 * ((j : ℚ) + 1)| < 1 / 10 ^ (14 : ℕ))) = some [true, true, true] := by
  decide +kernel

end Kinisi
