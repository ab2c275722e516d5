import Verif.Props.Ngp
import Mathlib.Algebra.BigOperators.Field

/-!
# C92: the non-Gaussian parameter of Gaussian displacements
-/

set_option linter.unusedSectionVars false
set_option linter.unusedVariables false

namespace Kinisi
open Spec
variable {K : Type} [Field K] [LinearOrder K] [IsStrictOrderedRing K] [FloorRing K] {G : Type}

theorem meanOn_sum {ι κ : Type} (S : Finset ι) (T : Finset κ) (f : κ → ι → K) :
    meanOn S (fun p => ∑ x ∈ T, f x p) = ∑ x ∈ T, meanOn S (f x) := by
  unfold meanOn
  rw [Finset.sum_comm, Finset.sum_div]

theorem gaussian_ngp {A : Finset (Fin 3)} (hA : A.Nonempty) {a : Arr3 K} {s : K} (h : GaussianMoments A a s) :
    ngp (pairs a) (sqLen A a) = 3 * ((A.card : K) + 2) / (5 * A.card) - 1 := by
  have h1 : meanOn (pairs a) (sqLen A a) = A.card * s := by
    have : sqLen A a = fun p => ∑ x ∈ A, a.get p.1 p.2 x ^ 2 := rfl
    rw [this, meanOn_sum, Finset.sum_congr rfl h.second, Finset.sum_const, nsmul_eq_mul]
  have h2 : meanOn (pairs a) (fun p => sqLen A a p ^ 2) = A.card * (A.card + 2) * s ^ 2 := by
    have e : (fun p => sqLen A a p ^ 2) = fun p => ∑ x ∈ A, ∑ y ∈ A, a.get p.1 p.2 x ^ 2 * a.get p.1 p.2 y ^ 2 := by
      funext p
      rw [sqLen, sq, Finset.sum_mul_sum]
    rw [e, meanOn_sum]
    have row : ∀ x ∈ A, meanOn (pairs a) (fun p => ∑ y ∈ A, a.get p.1 p.2 x ^ 2 * a.get p.1 p.2 y ^ 2) = (A.card + 2) * s ^ 2 := by
      intro x hx
      rw [meanOn_sum, ← Finset.add_sum_erase A _ hx]
      have h4 : meanOn (pairs a) (fun p => a.get p.1 p.2 x ^ 2 * a.get p.1 p.2 x ^ 2) = 3 * s ^ 2 := by
        rw [← h.fourth x hx]
        congr 1
        funext p
        ring
      rw [h4, Finset.sum_congr rfl fun y hy => h.mixed x hx y (Finset.mem_of_mem_erase hy) (Finset.ne_of_mem_erase hy).symm,
        Finset.sum_const, Finset.card_erase_of_mem hx, nsmul_eq_mul, Nat.cast_sub (Finset.card_pos.mpr ⟨x, hx⟩)]
      push_cast
      ring
    rw [Finset.sum_congr rfl row, Finset.sum_const, nsmul_eq_mul]
    ring
  have hc : (A.card : K) ≠ 0 := by exact_mod_cast (Finset.card_pos.mpr hA).ne'
  have hs := h.pos.ne'
  rw [ngp, h1, h2]
  field_simp

theorem gaussian_not_still {A : Finset (Fin 3)} (hA : A.Nonempty) {a : Arr3 K} {s : K} (h : GaussianMoments A a s) :
    ¬ ∀ p ∈ pairs a, sqLen A a p = 0 := by
  intro h0
  obtain ⟨x, hx⟩ := hA
  have e := h.second x hx
  have : meanOn (pairs a) (fun p => a.get p.1 p.2 x ^ 2) = 0 := by
    unfold meanOn
    rw [Finset.sum_eq_zero, zero_div]
    intro p hp
    exact (Finset.sum_eq_zero_iff_of_nonneg fun y _ => sq_nonneg _).mp (h0 p hp) x hx
  rw [this] at e
  exact h.pos.ne e

/-- **C92, the value.** If the displacements of an interval have the second and fourth moments of independent normal variables along the
`d` chosen axes, the reported non-Gaussian parameter is `3 (d + 2) / (5 d) - 1`. -/
theorem C92_gaussian_value (sq : K → K) (o : Oracle K G) (opt : BootOpts K) (g g' : G) (deltaT : List K)
    (disp : List (Arr3 K)) (nO : List K) (d : String) (b : Boot K)
    (h : msdBootstrap sq o opt g deltaT disp nO 1 d = .ok (b, g')) (i : ℕ) (hi : i < b.ngp.length) (a : Arr3 K) (ha : disp[i]? = some a)
    (s : K) (hs : GaussianMoments (axesOf d) a s) :
    b.ngp[i]? = some (some (3 * (((axesOf d).card : K) + 2) / (5 * (axesOf d).card) - 1)) := by
  obtain ⟨ds, h1, h2⟩ := C35_ngp_value sq o opt g g' deltaT disp nO 1 d b h
  rw [pyStride_one] at h1
  obtain rfl := Except.ok.inj h1
  obtain ⟨a', e1, e2⟩ := h2 i hi
  obtain rfl := Option.some.inj (ha.symm.trans e1)
  have hA : (axesOf d).Nonempty := by
    obtain ⟨b0, P, hb0, -⟩ := msdBootstrap_inv h
    obtain ⟨ds, dts, sel, d0, -, -, h3, -, -⟩ := bootInit_inv hb0
    obtain ⟨-, hA, -⟩ := dimensionSlice_axes h3
    rw [← hA, List.toFinset_nonempty_iff]
    have all : ∀ q ∈ dimensionality, q.2.axes ≠ [] := by decide
    exact all _ (dimensionSlice_inv h3)
  rw [e2, if_neg (gaussian_not_still hA hs), gaussian_ngp hA hs]

/-- **C92, what holds.** It is zero when all three axes are analysed.  Missing: one or two axes. -/
theorem C92_three_axes_partial (sq : K → K) (o : Oracle K G) (opt : BootOpts K) (g g' : G) (deltaT : List K)
    (disp : List (Arr3 K)) (nO : List K) (d : String) (hd : (axesOf d).card = 3) (b : Boot K)
    (h : msdBootstrap sq o opt g deltaT disp nO 1 d = .ok (b, g')) (i : ℕ) (hi : i < b.ngp.length) (a : Arr3 K) (ha : disp[i]? = some a)
    (s : K) (hs : GaussianMoments (axesOf d) a s) : b.ngp[i]? = some (some 0) := by
  rw [C92_gaussian_value sq o opt g g' deltaT disp nO d b h i hi a ha s hs, hd]
  norm_num

/-- The six equally likely values -1, 1, 0, 0, 0, 0 have variance 1/3 and fourth moment 3 / 3². -/
def exMoment (k : ℕ) : ℚ := if k = 0 then -1 else if k = 1 then 1 else 0

/-- One atom and 216 observations: all triples of these values. -/
def exGauss : Arr3 ℚ := ⟨1, 216, fun _ k => ![exMoment (k % 6), exMoment (k / 6 % 6), exMoment (k / 36)]⟩

theorem exGauss_moments : GaussianMoments Finset.univ exGauss (1 / 3) := by
  constructor <;> decide +kernel

/-- **C92, violated.** Displacements with the moments of independent normal variables along all three axes: the parameter is zero for
"xyz" but 1/5 for "xy" and 4/5 for "x". -/
theorem C92_violated : GaussianMoments Finset.univ exGauss (1 / 3) ∧
    ∀ q ∈ [("xyz", 0), ("xy", (1 : ℚ) / 5), ("x", 4 / 5)], ∃ b,
      msdBootstrap id (exOracle ℚ) (exOpts ℚ) () [1] [exGauss] [216] 1 q.1 = .ok (b, ()) ∧ b.ngp = [some q.2] := by
  refine ⟨exGauss_moments, ?_⟩
  have key : ∀ q ∈ [("xyz", 0), ("xy", (1 : ℚ) / 5), ("x", 4 / 5)],
      ((msdBootstrap id (exOracle ℚ) (exOpts ℚ) () [1] [exGauss] [216] 1 q.1).toOption.map fun z => z.1.ngp) = some [some q.2] := by
    decide +kernel
  intro q hq
  have h := key q hq
  cases hb : msdBootstrap id (exOracle ℚ) (exOpts ℚ) () [1] [exGauss] [216] 1 q.1 with
  | error e => rw [hb] at h; cases h
  | ok z =>
    rw [hb] at h
    exact ⟨z.1, rfl, Option.some.inj h⟩

/-- `C92_gaussian_value` and `C92_three_axes_partial` for these displacements. -/
example : ∃ b : Boot ℚ, msdBootstrap id (exOracle ℚ) (exOpts ℚ) () [1] [exGauss] [216] 1 "xyz" = .ok (b, ()) ∧ b.ngp[0]? = some (some 0) ∧
    b.ngp[0]? = some (some (3 * (((axesOf "xyz").card : ℚ) + 2) / (5 * (axesOf "xyz").card) - 1)) := by
  obtain ⟨b, hb, hn⟩ := C92_violated.2 ("xyz", 0) (by simp)
  have hax : axesOf "xyz" = Finset.univ := by decide +kernel
  exact ⟨b, hb, C92_three_axes_partial id _ _ () () _ _ _ "xyz" (by rw [hax]; rfl) b hb 0 (by rw [hn]; simp) exGauss rfl (1 / 3)
      (hax ▸ exGauss_moments),
    C92_gaussian_value id _ _ () () _ _ _ "xyz" b hb 0 (by rw [hn]; simp) exGauss rfl (1 / 3) (hax ▸ exGauss_moments)⟩

end Kinisi
