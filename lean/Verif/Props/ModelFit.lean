import Verif.Props.PoolFit
import Verif.Props.Offset
import Verif.Props.AxesTotal
import Mathlib.Tactic.LinearCombination

/-!
# C146: fits with the random walk model
-/

set_option linter.unusedSectionVars false
set_option linter.unusedVariables false

namespace Kinisi
open Spec
variable {K : Type} [Field K] [LinearOrder K] [IsStrictOrderedRing K] [FloorRing K] {G : Type}

/-- `P` are the weights of a fit of `b` from position `r` on with `model=True` and without conditioning: the inverse of the matrix built with the variances `a / n_o * dt²`, whatever positive coefficient
`a` `curve_fit` has found. -/
def ModelWeights (b : Boot K) (r : ℕ) {m : ℕ} (P : Matrix (Fin m) (Fin m) K) : Prop :=
  ∃ (a : K) (v : List (Option K)) (A : Matrix (Fin m) (Fin m) K), 0 < a ∧ modelVariance (b.nO.drop r) (b.dt.drop r) a = .ok v ∧ populateCovariance v (b.nO.drop r) = .ok (rowsOf A) ∧ A * P = 1

/-- The line with gradient `g` and intercept `c` has the highest likelihood in a fit of `b` from position `r` on with `model=True`. -/
def ModelFit (b : Boot K) (r : ℕ) (g c : K) : Prop :=
  ∃ (m : ℕ) (P : Matrix (Fin m) (Fin m) K) (ld best : K), m = b.n.length - r ∧ ModelWeights b r P ∧ BestLine (fitLL b r ld P) g c best

/-- One time and one number of observations for every value, the times ascending. -/
def Aligned (b : Boot K) : Prop := b.dt.length = b.n.length ∧ b.nO.length = b.n.length ∧ b.dt.Pairwise (· < ·)

/-- The covariance matrix of the random walk model up to a factor. -/
def walkMatrix {m : ℕ} (T : Fin m → K) : Matrix (Fin m) (Fin m) K := fun i j => T (min i j) ^ 2 * T (max i j)

/-- The weights of such a fit are those given by the times, up to a factor. -/
theorem model_weights {b : Boot K} {r m : ℕ} {P : Matrix (Fin m) (Fin m) K} (hI : InverseCounts b) (hal : Aligned b) (hm : m = b.n.length - r) (hP : ModelWeights b r P) :
    (∃ s : K, 0 < s ∧ walkMatrix (fun i : Fin m => (b.dt.drop r).getD i 0) * (s • P) = 1) ∧ PD P ∧ (∀ i j, P i j = P j i) := by
  obtain ⟨⟨κ, hκ⟩, ht, hn⟩ := hI
  obtain ⟨l1, l2, l3⟩ := hal
  obtain ⟨a, v, A, ha, hv, hA, hAP⟩ := hP
  by_cases hm0 : m = 0
  · subst hm0
    refine ⟨⟨1, one_pos, by ext i; exact i.elim0⟩, fun x hx => absurd (funext fun i => i.elim0) hx, fun i => i.elim0⟩
  have gt : ∀ i : Fin m, b.dt[r + i.val]? = some ((b.dt.drop r).getD i 0) := fun i => by
    rw [List.getD_eq_getElem?_getD, List.getElem?_drop, List.getElem?_eq_getElem (by have := i.isLt; omega)]; rfl
  have gn : ∀ i : Fin m, b.nO[r + i.val]? = some ((b.nO.drop r).getD i 0) := fun i => by
    rw [List.getD_eq_getElem?_getD, List.getElem?_drop, List.getElem?_eq_getElem (by have := i.isLt; omega)]; rfl
  set T : Fin m → K := fun i => (b.dt.drop r).getD i 0 with hT
  set N : Fin m → K := fun i => (b.nO.drop r).getD i 0 with hN
  have e1 : b.dt.drop r = List.ofFn T := by
    apply List.ext_getElem
    · simp; omega
    · intro i h1 h2
      simp only [List.getElem_ofFn, hT, List.getD_eq_getElem?_getD, List.getElem?_eq_getElem h1, Option.getD_some]
  have e2 : b.nO.drop r = List.ofFn N := by
    apply List.ext_getElem
    · simp; omega
    · intro i h1 h2
      simp only [List.getElem_ofFn, hN, List.getD_eq_getElem?_getD, List.getElem?_eq_getElem h1, Option.getD_some]
  have hNp : ∀ i, 0 < N i := fun i => hn _ (List.mem_of_getElem? (gn i))
  have hTp : ∀ i, 0 < T i := fun i => ht _ (List.mem_of_getElem? (gt i))
  have hc : ∀ i, N i * T i = κ := fun i => hκ _ _ _ (gt i) (gn i)
  have hκp : 0 < κ := by rw [← hc ⟨0, by omega⟩]; exact mul_pos (hNp _) (hTp _)
  have hst : ∀ i j, i < j → T i < T j := by
    intro i j hij
    have := List.pairwise_iff_getElem.1 l3 (r + i.val) (r + j.val) (by have := i.isLt; omega) (by have := j.isLt; omega) (by have : i.val < j.val := hij; omega)
    have h1 := gt i
    have h2 := gt j
    rw [List.getElem?_eq_getElem (by have := i.isLt; omega)] at h1
    rw [List.getElem?_eq_getElem (by have := j.isLt; omega)] at h2
    rw [Option.some.inj h1, Option.some.inj h2] at this
    exact this
  obtain ⟨f1, A', f2, f3, f4, f5⟩ := model_cov N T a κ hNp hc hκp.le ha.le (fun i j hij => by
    rcases hij.lt_or_eq with h | rfl
    · exact (hst i j h).le
    · exact le_refl _)
  rw [e1, e2, f1] at hv
  obtain rfl := Except.ok.inj hv
  rw [e2, f2] at hA
  obtain rfl := rowsOf_injective (Except.ok.inj hA)
  have hpd : PD A' := f5 ha hκp hst
  have hPA : P * A' = 1 := mul_eq_one_comm.mp hAP
  have hsym : ∀ i j, P i j = P j i := by
    have hAt : A'.transpose = A' := by ext i j; exact f3 j i
    have : P.transpose = P := by
      calc P.transpose = P.transpose * (A' * P) := by rw [hAP, mul_one]
        _ = (A' * P).transpose * P := by rw [Matrix.transpose_mul, hAt, mul_assoc]
        _ = P := by rw [hAP, Matrix.transpose_one, one_mul]
    intro i j
    exact congrFun (congrFun this j) i
  refine ⟨⟨a / κ, div_pos ha hκp, ?_⟩, pd_inverse hsym hPA hpd, hsym⟩
  obtain ⟨A'', c1, c2, c3, c4⟩ := C40_covariance (fun i => a / N i * T i ^ 2) N [] fun i => (hNp i).ne'
  rw [List.append_nil, f2] at c1
  obtain rfl := rowsOf_injective (Except.ok.inj c1)
  have hfac : A' = (a / κ) • walkMatrix T := by
    have le : ∀ i j, i ≤ j → A' i j = a / κ * (T i ^ 2 * T j) := by
      intro i j hij
      rw [c4 i j hij, ← hc j]
      have h1 := (hNp i).ne'
      have h2 := (hNp j).ne'
      have h3 := (hTp j).ne'
      field_simp
    ext i j
    show A' i j = a / κ * (T (min i j) ^ 2 * T (max i j))
    rcases le_total i j with h | h
    · rw [min_eq_left h, max_eq_right h]; exact le i j h
    · rw [min_eq_right h, max_eq_left h, f3]; exact le j i h
  rw [Matrix.mul_smul, ← Matrix.smul_mul, ← hfac]
  exact hAP

theorem form_smul_matrix {m : ℕ} (s : K) (P : Matrix (Fin m) (Fin m) K) (x y : Fin m → K) : form (s • P) x y = s * form P x y := by
  unfold form
  simp only [Finset.mul_sum, Matrix.smul_apply, smul_eq_mul]
  exact Finset.sum_congr rfl fun i _ => Finset.sum_congr rfl fun j _ => by ring

theorem form_sum_right {ι : Type} [Fintype ι] {m : ℕ} (P : Matrix (Fin m) (Fin m) K) (x : Fin m → K) (w : ι → K) (y : ι → Fin m → K) :
    form P x (fun i => ∑ k, w k * y k i) = ∑ k, w k * form P x (y k) := by
  unfold form
  simp only [Finset.mul_sum]
  symm
  rw [Finset.sum_comm]
  refine Finset.sum_congr rfl fun i _ => ?_
  rw [Finset.sum_comm]
  exact Finset.sum_congr rfl fun j _ => Finset.sum_congr rfl fun k _ => by ring

/-- **C146, any combination of curves.** Curves over the same times, fitted with the random walk model and an intercept from the same interval on, with positive gradients.  A curve that is from there
on a combination of these curves with non-negative coefficients has the combination of their lines as its line of highest likelihood: gradient and intercept are linear in the curve.  The
measured variances, the coefficients found by `curve_fit` and the numbers of atoms do not matter. -/
theorem C146_combined {ι : Type} [Fintype ι] (x : ι → Boot K) (b : Boot K) (r : ℕ) (hr : r + 2 ≤ b.n.length) (w : ι → K) (hw : ∀ j, 0 ≤ w j) (hx : ∀ j, InverseCounts (x j) ∧ Aligned (x j))
    (hb : InverseCounts b ∧ Aligned b) (hdt : ∀ j, (x j).dt = b.dt) (hy : ∀ i, r ≤ i → i < b.n.length → b.n.getD i 0 = ∑ j, w j * (x j).n.getD i 0) (g c : ι → K) (hg : ∀ j, 0 < g j)
    (hfit : ∀ j, ModelFit (x j) r (g j) (c j)) (γ δ : K) (hγ : ModelFit b r γ δ) : γ = ∑ j, w j * g j ∧ δ = ∑ j, w j * c j := by
  obtain ⟨m, P, ld, best, hm, hP, hB⟩ := hγ
  obtain ⟨⟨s, hs, hsP⟩, hpd, hsym⟩ := model_weights hb.1 hb.2 hm hP
  set T : Fin m → K := fun i => (b.dt.drop r).getD i 0 with hT
  have hne : ∃ i j, T i ≠ T j := by
    refine ⟨⟨0, by omega⟩, ⟨1, by omega⟩, ?_⟩
    have h1 := hb.2.1
    have := List.pairwise_iff_getElem.1 hb.2.2.2 (r + 0) (r + 1) (by omega) (by omega) (by omega)
    simp only [hT, List.getD_eq_getElem?_getD, List.getElem?_drop]
    rw [List.getElem?_eq_getElem (by omega), List.getElem?_eq_getElem (by omega)]
    exact this.ne
  have key : ∀ j, NormalEquations P T (fun i => ((x j).n.drop r).getD i 0) (g j) (c j) := by
    intro j
    obtain ⟨m', P', ld', best', hm', hP', hB'⟩ := hfit j
    have hl : (x j).n.length = b.n.length := by rw [← (hx j).2.1, hdt j, hb.2.1]
    obtain rfl : m' = m := by rw [hm', hm, hl]
    obtain ⟨⟨s', hs', hsP'⟩, hpd', hsym'⟩ := model_weights (hx j).1 (hx j).2 hm' hP'
    rw [hdt j, ← hT] at hsP'
    have hPP : s' • P' = s • P := by
      have h1 : (s • P) * walkMatrix T = 1 := mul_eq_one_comm.mp hsP
      calc s' • P' = ((s • P) * walkMatrix T) * (s' • P') := by rw [h1, one_mul]
        _ = s • P := by rw [mul_assoc, hsP', mul_one]
    have hN := C45_maximum_normal ld' P' hsym' (fun z => by
      by_cases hz : z = 0
      · subst hz; simp
      · exact (hpd' z hz).le) (fun i : Fin m' => ((x j).dt.drop r).getD i 0) (fun i => ((x j).n.drop r).getD i 0) (g j) (c j) (hg j) best' hB'.1 hB'.2
    rw [hdt j] at hN
    have hz : ∀ u z, form P' u z = 0 → form P u z = 0 := by
      intro u z h0
      have : form (s' • P') u z = form (s • P) u z := by rw [hPP]
      rw [form_smul_matrix, form_smul_matrix, h0, mul_zero] at this
      exact (mul_eq_zero.1 this.symm).resolve_left hs.ne'
    exact ⟨hz _ _ hN.1, hz _ _ hN.2⟩
  have hres : lineResidual T (fun i : Fin m => (b.n.drop r).getD i 0) (∑ j, w j * g j) (∑ j, w j * c j) =
      fun i => ∑ j, w j * lineResidual T (fun i : Fin m => ((x j).n.drop r).getD i 0) (g j) (c j) i := by
    funext i
    have hi := i.isLt
    have : (b.n.drop r).getD i 0 = ∑ j, w j * ((x j).n.drop r).getD i 0 := by
      have := hy (r + i) (by omega) (by omega)
      simpa only [List.getD_eq_getElem?_getD, List.getElem?_drop] using this
    show (b.n.drop r).getD i 0 - ((∑ j, w j * g j) * T i + ∑ j, w j * c j) = ∑ j, w j * (((x j).n.drop r).getD i 0 - (g j * T i + c j))
    rw [this]
    rw [Finset.sum_mul, ← Finset.sum_add_distrib, ← Finset.sum_sub_distrib]
    exact Finset.sum_congr rfl fun j _ => by ring
  have hNE : NormalEquations P T (fun i : Fin m => (b.n.drop r).getD i 0) (∑ j, w j * g j) (∑ j, w j * c j) := by
    unfold NormalEquations
    rw [hres, form_sum_right, form_sum_right]
    exact ⟨Finset.sum_eq_zero fun j _ => by rw [(key j).1, mul_zero], Finset.sum_eq_zero fun j _ => by rw [(key j).2, mul_zero]⟩
  obtain ⟨best', q1, q2, -⟩ := C45_maximum ld P hsym (fun z => by
      by_cases hz : z = 0
      · subst hz; simp
      · exact (hpd z hz).le) T (fun i : Fin m => (b.n.drop r).getD i 0) _ _ (Finset.sum_nonneg fun j _ => mul_nonneg (hw j) (hg j).le) hNE
  exact bestLine_unique hpd hne (h := ⟨q1, q2⟩) (h' := hB)

/-- **C146, the measured variances do not matter.** Two curves with the same values and times, whatever their measured variances, numbers of observations and coefficients: the random walk model fits the
same line to both.  No condition on the gradient. -/
theorem C146_same (b b' : Boot K) (r : ℕ) (hr : r + 2 ≤ b.n.length) (hb : InverseCounts b ∧ Aligned b) (hb' : InverseCounts b' ∧ Aligned b') (hn : b'.n = b.n) (ht : b'.dt = b.dt) (g c g' c' : K)
    (h : ModelFit b r g c) (h' : ModelFit b' r g' c') : g' = g ∧ c' = c := by
  obtain ⟨m, P, ld, best, hm, hP, hB⟩ := h
  obtain ⟨m', P', ld', best', hm', hP', hB'⟩ := h'
  obtain rfl : m' = m := by rw [hm', hm, hn]
  obtain ⟨⟨s, hs, hsP⟩, hpd, hsym⟩ := model_weights hb.1 hb.2 hm hP
  obtain ⟨⟨s', hs', hsP'⟩, -, -⟩ := model_weights hb'.1 hb'.2 hm' hP'
  rw [ht] at hsP'
  have hne : ∃ i j : Fin m', (b.dt.drop r).getD i 0 ≠ (b.dt.drop r).getD j 0 := by
    refine ⟨⟨0, by omega⟩, ⟨1, by omega⟩, ?_⟩
    have h1 := hb.2.1
    have := List.pairwise_iff_getElem.1 hb.2.2.2 (r + 0) (r + 1) (by omega) (by omega) (by omega)
    simp only [List.getD_eq_getElem?_getD, List.getElem?_drop]
    rw [List.getElem?_eq_getElem (by omega), List.getElem?_eq_getElem (by omega)]
    exact this.ne
  have hPP : P' = (s / s') • P := by
    have h1 := mul_eq_one_comm.mp hsP
    have : s' • P' = s • P := by
      calc s' • P' = ((s • P) * walkMatrix fun i : Fin m' => (b.dt.drop r).getD i 0) * (s' • P') := by rw [h1, one_mul]
        _ = s • P := by rw [mul_assoc, hsP', mul_one]
    calc P' = s'⁻¹ • (s' • P') := by rw [smul_smul, inv_mul_cancel₀ hs'.ne', one_smul]
      _ = (s / s') • P := by rw [this, smul_smul]; congr 1; field_simp
  have hk : 0 < s / s' := div_pos hs hs'
  generalize s / s' = k at hPP hk
  subst hPP
  have val : ∀ (l : K) (Q : Matrix (Fin m') (Fin m') K) (θ : List K), fitLL b r l Q θ = if θ.getD 0 0 < 0 then none else
      some (-(1 / 2) * (l + form Q (fun i => straightLine ((b.dt.drop r).getD i 0) θ - (b.n.drop r).getD i 0) (fun i => straightLine ((b.dt.drop r).getD i 0) θ - (b.n.drop r).getD i 0))) := by
    intro l Q θ
    unfold fitLL logLikelihood
    simp only [form_eq_dot]
  have e : fitLL b' r ld' (k • P) = fitLL b r ld' (k • P) := by unfold fitLL; rw [hn, ht]
  rw [e] at hB'
  have hlift : BestLine (fitLL b r ld' (k • P)) g c (-(1 / 2) * ld' + k * (best + 1 / 2 * ld)) := by
    refine ⟨?_, ?_⟩
    · have := hB.1
      rw [val] at this ⊢
      split_ifs at this ⊢ with hneg
      rw [form_smul_matrix, ← Option.some.inj this]
      congr 1
      ring
    · intro g₁ c₁ l hl
      have h2 := hB.2 g₁ c₁
      rw [val] at h2 hl
      split_ifs at h2 hl with hneg
      rw [form_smul_matrix] at hl
      have := h2 _ rfl
      rw [← Option.some.inj hl]
      have := mul_le_mul_of_nonneg_left this hk.le
      linarith
  have hpd' : PD (k • P) := by
    intro z hz
    have := hpd z hz
    show 0 < form (k • P) z z
    rw [form_smul_matrix]
    exact mul_pos hk this
  exact bestLine_unique hpd' hne hlift hB'

/-- The intervals of two runs over the same displacements are the same. -/
theorem msd_axes_times {sq : K → K} {o : Oracle K G} {opt : BootOpts K} (hblock : opt.block = false) {g g₁ g₂ : G} {deltaT : List K} {disp : List (Arr3 K)} {nO : List K} {sub : ℤ} {d d' : String} {b b' : Boot K}
    (h : msdBootstrap sq o opt g deltaT disp nO sub d = .ok (b, g₁)) (h' : msdBootstrap sq o opt g deltaT disp nO sub d' = .ok (b', g₂)) : b.n.length = b'.n.length ∧ b.dt = b'.dt := by
  obtain ⟨ds, dts, u1, u2, u3, u4, u5⟩ := C28_msd sq o opt hblock g g₁ deltaT disp nO sub d b h
  obtain ⟨ds', dts', w1, w2, w3, w4, w5⟩ := C28_msd sq o opt hblock g g₂ deltaT disp nO sub d' b' h'
  rw [u1] at w1
  rw [u2] at w2
  obtain rfl := Except.ok.inj w1
  obtain rfl := Except.ok.inj w2
  have hl : b.n.length = b'.n.length := by
    apply le_antisymm
    · by_contra hc
      obtain ⟨a, f1, f2, -⟩ := u4 b'.n.length (by omega)
      have := w5 _ (le_refl _) a f1
      omega
    · by_contra hc
      obtain ⟨a, f1, f2, -⟩ := w4 b.n.length (by omega)
      have := u5 _ (le_refl _) a f1
      omega
  refine ⟨hl, List.ext_getElem? fun i => ?_⟩
  by_cases hi : i < b.n.length
  · obtain ⟨-, -, -, -, f⟩ := u4 i hi
    obtain ⟨-, -, -, -, f'⟩ := w4 i (by omega)
    rw [f, f']
  · rw [List.getElem?_eq_none (by omega), List.getElem?_eq_none (by omega)]

/-- Two curves that add up. -/
theorem model_sum {b b₁ b₂ : Boot K} (hadd : b.n = List.zipWith (fun x y => x + y) b₁.n b₂.n) (ht₁ : b₁.dt = b.dt) (ht₂ : b₂.dt = b.dt) (hb : InverseCounts b ∧ Aligned b) (hb₁ : InverseCounts b₁ ∧ Aligned b₁)
    (hb₂ : InverseCounts b₂ ∧ Aligned b₂) {r : ℕ} (hr : r + 2 ≤ b.n.length) {g g₁ g₂ c c₁ c₂ : K} (hg₁ : 0 < g₁) (hg₂ : 0 < g₂) (f : ModelFit b r g c) (f₁ : ModelFit b₁ r g₁ c₁) (f₂ : ModelFit b₂ r g₂ c₂) :
    g = g₁ + g₂ ∧ c = c₁ + c₂ := by
  have l1 : b₁.n.length = b.n.length := by rw [← hb₁.2.1, ht₁, hb.2.1]
  have l2 : b₂.n.length = b.n.length := by rw [← hb₂.2.1, ht₂, hb.2.1]
  have := C146_combined ![b₁, b₂] b r hr ![1, 1] (by simp [Fin.forall_fin_two]) (by simpa [Fin.forall_fin_two] using ⟨hb₁, hb₂⟩) hb (by simpa [Fin.forall_fin_two] using ⟨ht₁, ht₂⟩) (by
    intro i h1 h2
    rw [Fin.sum_univ_two]
    simp only [Matrix.cons_val_zero, Matrix.cons_val_one, one_mul]
    rw [hadd]
    simp only [List.getD_eq_getElem?_getD, List.getElem?_zipWith]
    rw [List.getElem?_eq_getElem (by omega), List.getElem?_eq_getElem (by omega)]
    rfl) ![g₁, g₂] ![c₁, c₂] (by simpa [Fin.forall_fin_two] using ⟨hg₁, hg₂⟩) (by simpa [Fin.forall_fin_two] using ⟨f₁, f₂⟩) g c f
  simpa [Fin.sum_univ_two] using this

/-- **C146, axes.** The MSD of disjoint sets of axes, fitted with the random walk model: gradient and intercept for all the axes are the sums of those for the sets. -/
theorem C146_axes (sq : K → K) (o : Oracle K G) (opt : BootOpts K) (hblock : opt.block = false) (γ γ₀ γ₁ γ₂ : G) (deltaT : List K) (disp : List (Arr3 K)) (nO : List K) (sub : ℤ) (d d₁ d₂ : String)
    (hu : axesOf d = axesOf d₁ ∪ axesOf d₂) (hdisj : Disjoint (axesOf d₁) (axesOf d₂)) (b b₁ b₂ : Boot K) (h : msdBootstrap sq o opt γ deltaT disp nO sub d = .ok (b, γ₀))
    (h₁ : msdBootstrap sq o opt γ deltaT disp nO sub d₁ = .ok (b₁, γ₁)) (h₂ : msdBootstrap sq o opt γ deltaT disp nO sub d₂ = .ok (b₂, γ₂)) (hok : ∀ x ∈ [b, b₁, b₂], InverseCounts x ∧ Aligned x) (r : ℕ)
    (hr : r + 2 ≤ b.n.length) (g g₁ g₂ c c₁ c₂ : K) (hg₁ : 0 < g₁) (hg₂ : 0 < g₂) (f : ModelFit b r g c) (f₁ : ModelFit b₁ r g₁ c₁) (f₂ : ModelFit b₂ r g₂ c₂) : g = g₁ + g₂ ∧ c = c₁ + c₂ :=
  model_sum (C28_additive sq o opt hblock γ γ₀ γ₁ γ₂ deltaT disp nO sub d d₁ d₂ b b₁ b₂ hu hdisj h h₁ h₂) (msd_axes_times hblock h₁ h).2 (msd_axes_times hblock h₂ h).2 (hok b (by simp)) (hok b₁ (by simp))
    (hok b₂ (by simp)) hr hg₁ hg₂ f f₁ f₂

/-- **C146, axes of total displacements.** The same for the MSTD. -/
theorem C146_total_axes (sq : K → K) (o : Oracle K G) (opt : BootOpts K) (hblock : opt.block = false) (γ γ₀ γ₁ γ₂ : G) (deltaT : List K) (disp : List (Arr3 K)) (nO : List K) (d d₁ d₂ : String)
    (hu : axesOf d = axesOf d₁ ∪ axesOf d₂) (hdisj : Disjoint (axesOf d₁) (axesOf d₂)) (b b₁ b₂ : Boot K) (h : mstdBootstrap sq o opt γ deltaT disp nO 1 d = .ok (b, γ₀))
    (h₁ : mstdBootstrap sq o opt γ deltaT disp nO 1 d₁ = .ok (b₁, γ₁)) (h₂ : mstdBootstrap sq o opt γ deltaT disp nO 1 d₂ = .ok (b₂, γ₂)) (hok : ∀ x ∈ [b, b₁, b₂], InverseCounts x ∧ Aligned x) (r : ℕ)
    (hr : r + 2 ≤ b.n.length) (g g₁ g₂ c c₁ c₂ : K) (hg₁ : 0 < g₁) (hg₂ : 0 < g₂) (f : ModelFit b r g c) (f₁ : ModelFit b₁ r g₁ c₁) (f₂ : ModelFit b₂ r g₂ c₂) : g = g₁ + g₂ ∧ c = c₁ + c₂ := by
  have times : ∀ {x : Boot K} {s : String} {γ' : G}, mstdBootstrap sq o opt γ deltaT disp nO 1 s = .ok (x, γ') → x.dt = b.dt := by
    intro x s γ' hx
    have hl := mstd_axes_lengths hblock hx h
    obtain ⟨-, a2, a3, -⟩ := mstd_entries hblock hx
    obtain ⟨-, b2, b3, -⟩ := mstd_entries hblock h
    refine List.ext_getElem (by omega) fun i i1 i2 => ?_
    have e1 := a3 i _ (List.getElem?_eq_getElem i1)
    have e2 := b3 i _ (List.getElem?_eq_getElem i2)
    rw [e1] at e2
    exact Option.some.inj e2
  exact model_sum (C29_additive sq o opt hblock γ γ₀ γ₁ γ₂ deltaT disp nO d d₁ d₂ b b₁ b₂ hu hdisj h h₁ h₂) (times h₁) (times h₂) (hok b (by simp)) (hok b₁ (by simp)) (hok b₂ (by simp)) hr hg₁ hg₂ f f₁ f₂

/-- **C146, pooled trajectories.** Trajectories with identical starting points, equally many fitted intervals and equal times, each fitted with the random walk model: gradient and intercept of the pool are the
means of those of the single trajectories.  In particular copies of a trajectory change nothing, unlike with measured variances (`C145_violated`). -/
theorem C146_pool {α : Type} (parse : α → PyM (Parsed K)) (pj : Option (List α → PyM (Parsed K))) (xs : List α) (u0 : Parsed K) (others : List (Parsed K))
    (hp : xs.mapM parse = .ok (u0 :: others)) (m : ℕ) (N T : ℕ → ℕ) (hs : SameShape (u0 :: others) m N T) (sq : K → K) (o : Oracle K G) (opt : BootOpts K)
    (hblock : opt.block = false) (sub : ℤ) (d : String) (A : Base K) (hA : analyzerFrom parse pj (some "identical") (.several xs) = .ok A) (b : Boot K) (γ γ' : G)
    (h : msdBootstrap sq o opt γ A.deltaT A.disp3d A.nO sub d = .ok (b, γ')) (bs : List (Boot K))
    (hbs : List.Forall₂ (fun (u : Parsed K) b' => ∃ γ γ', msdBootstrap sq o opt γ u.deltaT u.disp3d u.nO sub d = .ok (b', γ')) (u0 :: others) bs) (hok : ∀ x ∈ b :: bs, InverseCounts x ∧ Aligned x)
    (hdt : ∀ x ∈ bs, x.dt = b.dt) (r : ℕ) (hr : r + 2 ≤ b.n.length) (g c : K) (f : ModelFit b r g c) (ls : List (K × K))
    (hls : List.Forall₂ (fun b' (l : K × K) => ModelFit b' r l.1 l.2 ∧ 0 < l.1) bs ls) : g = (ls.map Prod.fst).sum / (ls.length : K) ∧ c = (ls.map Prod.snd).sum / (ls.length : K) := by
  have hl : ls.length = bs.length := hls.length_eq.symm
  have hget : ∀ j : Fin bs.length, ModelFit (bs.get j) r (ls.get (j.cast hl.symm)).1 (ls.get (j.cast hl.symm)).2 ∧ 0 < (ls.get (j.cast hl.symm)).1 := fun j =>
    (List.forall₂_iff_get.1 hls).2 j.val j.isLt (by omega)
  have hlen : ∀ x ∈ bs, x.n.length = b.n.length := fun x hx => by
    rw [← (hok x (by simp [hx])).2.1, hdt x hx, (hok b (by simp)).2.1]
  obtain ⟨e1, e2⟩ := C146_combined (fun j : Fin bs.length => bs.get j) b r hr (fun _ => 1 / (bs.length : K)) (fun _ => by positivity) (fun j => hok _ (List.mem_cons_of_mem _ (List.get_mem bs j))) (hok b (by simp))
    (fun j => hdt _ (List.get_mem bs j)) (by
      intro i h1 h2
      have := C53_msd parse pj xs u0 others hp m N T hs sq o opt hblock sub d A hA b γ γ' h bs hbs i (fun b' hb' => by rw [hlen b' hb']; exact h2)
      rw [List.getD_eq_getElem?_getD, this, Option.getD_some, ← Finset.mul_sum]
      have : ∑ j : Fin bs.length, (bs.get j).n.getD i 0 = (bs.map fun b' => b'.n.getD i 0).sum := by
        rw [← Fin.sum_univ_fun_getElem]; rfl
      rw [this]
      ring) _ _ (fun j => (hget j).2) (fun j => (hget j).1) g c f
  have hsum : ∀ F : K × K → K, ∑ j : Fin bs.length, 1 / (bs.length : K) * F (ls.get (j.cast hl.symm)) = (ls.map F).sum / (ls.length : K) := by
    intro F
    have e3 : ∑ j : Fin bs.length, F (ls.get (j.cast hl.symm)) = (ls.map F).sum := by
      rw [← Fin.sum_univ_fun_getElem]
      exact Fintype.sum_equiv (finCongr hl.symm) _ _ fun j => rfl
    have e4 : (ls.length : K) = bs.length := by exact_mod_cast hl
    rw [← Finset.mul_sum, e3, e4, one_div_mul_eq_div]
  exact ⟨by rw [e1]; exact hsum Prod.fst, by rw [e2]; exact hsum Prod.snd⟩

/-- **C146, several species.** As C122, fitted with the random walk model: gradient and intercept of both species together are the means weighted with the numbers of atoms. -/
theorem C146_species (E : Num K) (P : Params K) (S : Select K) (f : PySeq) (hS : S.framework = some f) (A B : List String) (hd : ∀ s ∈ A, s ∉ B) (sy : List String)
    (hA : 2 ≤ (chosen sy A).length) (hB : 2 ≤ (chosen sy B).length) (rd : Select K → PyM (Base K)) (hrd : Reads E P sy rd) (sq : K → K) (o : Oracle K G) (U : UncParams K)
    (hblock : U.opt.block = false) (γ₁ γ₁' γ₂ γ₂' γ₃ γ₃' : G) (Z₁ Z₂ Z₃ : Analyzer K) (h₁ : diffusionAnalyzer sq o γ₁ U (rd (withSpecies S A)) = .ok (Z₁, γ₁'))
    (h₂ : diffusionAnalyzer sq o γ₂ U (rd (withSpecies S B)) = .ok (Z₂, γ₂')) (h₃ : diffusionAnalyzer sq o γ₃ U (rd (withSpecies S (A ++ B))) = .ok (Z₃, γ₃'))
    (hok : ∀ z ∈ [Z₁, Z₂, Z₃], InverseCounts z.diff ∧ Aligned z.diff) (r : ℕ) (hr : r + 2 ≤ Z₃.diff.n.length) (g₁ g₂ g₃ c₁ c₂ c₃ : K) (hg₁ : 0 < g₁) (hg₂ : 0 < g₂) (e₁ : ModelFit Z₁.diff r g₁ c₁)
    (e₂ : ModelFit Z₂.diff r g₂ c₂) (e₃ : ModelFit Z₃.diff r g₃ c₃) :
    g₃ = ((chosen sy A).length * g₁ + (chosen sy B).length * g₂) / ((chosen sy A).length + (chosen sy B).length) ∧
      c₃ = ((chosen sy A).length * c₁ + (chosen sy B).length * c₂) / ((chosen sy A).length + (chosen sy B).length) := by
  obtain ⟨t1, t2, -, hn, -⟩ := C122_species E P S f hS A B hd sy hA hB rd hrd sq o U hblock γ₁ γ₁' γ₂ γ₂' γ₃ γ₃' Z₁ Z₂ Z₃ h₁ h₂ h₃
  have l1 : Z₁.diff.n.length = Z₃.diff.n.length := by rw [← (hok Z₁ (by simp)).2.1, t1, (hok Z₃ (by simp)).2.1]
  have l2 : Z₂.diff.n.length = Z₃.diff.n.length := by rw [← (hok Z₂ (by simp)).2.1, t2, (hok Z₃ (by simp)).2.1]
  set p : K := ((chosen sy A).length : K) with hp
  set q : K := ((chosen sy B).length : K) with hq
  have hp0 : 0 ≤ p := by positivity
  have hq0 : 0 ≤ q := by positivity
  have := C146_combined ![Z₁.diff, Z₂.diff] Z₃.diff r hr ![p / (p + q), q / (p + q)] (by
      simp only [Fin.forall_fin_two, Matrix.cons_val_zero, Matrix.cons_val_one]
      exact ⟨by positivity, by positivity⟩) (by simpa [Fin.forall_fin_two] using ⟨hok Z₁ (by simp), hok Z₂ (by simp)⟩) (hok Z₃ (by simp))
    (by simpa [Fin.forall_fin_two] using ⟨t1, t2⟩) (by
    intro i h1 h2
    rw [Fin.sum_univ_two]
    simp only [Matrix.cons_val_zero, Matrix.cons_val_one]
    rw [hn]
    simp only [List.getD_eq_getElem?_getD, List.getElem?_zipWith]
    rw [List.getElem?_eq_getElem (by omega), List.getElem?_eq_getElem (by omega)]
    simp only [Option.getD_some]
    ring) ![g₁, g₂] ![c₁, c₂] (by simpa [Fin.forall_fin_two] using ⟨hg₁, hg₂⟩) (by simpa [Fin.forall_fin_two] using ⟨e₁, e₂⟩) g₃ c₃ e₃
  rw [Fin.sum_univ_two, Fin.sum_univ_two] at this
  simp only [Matrix.cons_val_zero, Matrix.cons_val_one] at this
  exact ⟨by rw [this.1]; ring, by rw [this.2]; ring⟩

/-! ## Examples -/

/-- A line that solves the normal equations, from the numbers. -/
theorem exModel_fit {b : Boot ℚ} {y n t : List ℚ} {v : List (Option ℚ)} {m : ℕ} {A P : Matrix (Fin m) (Fin m) ℚ} (a κ g c : ℚ) (h1 : b.n = y) (h3 : b.nO = n) (h4 : b.dt = t) (hy : y.length = m)
    (hn : n.length = m) (ht : t.length = m) (ha : 0 < a) (hv : (modelVariance n t a).toOption = some v) (hA : (populateCovariance v n).toOption = some (rowsOf A)) (hAP : A * P = 1) (hn0 : ∀ N ∈ n, 0 < N)
    (ht0 : ∀ x ∈ t, 0 < x) (hκ : ∀ i < m, n.getD i 0 * t.getD i 0 = κ) (hasc : t.Pairwise (· < ·)) (hg : 0 ≤ g)
    (hN : form P (fun i => t.getD i 0) (lineResidual (fun i : Fin m => t.getD i 0) (fun i => y.getD i 0) g c) = 0 ∧ form P (fun _ => 1) (lineResidual (fun i : Fin m => t.getD i 0) (fun i => y.getD i 0) g c) = 0) :
    (InverseCounts b ∧ Aligned b) ∧ ModelFit b 0 g c := by
  subst h1 h3 h4
  have hI : InverseCounts b := by
    refine ⟨⟨κ, fun k x N hx hN => ?_⟩, ht0, hn0⟩
    have hk : k < m := by rw [← ht]; exact (List.getElem?_eq_some_iff.1 hx).1
    have := hκ k hk
    rw [List.getD_eq_getElem?_getD, List.getD_eq_getElem?_getD, hx, hN] at this
    exact this
  have hal : Aligned b := ⟨by rw [ht, hy], by rw [hn, hy], hasc⟩
  have hW : ModelWeights b 0 P := ⟨a, v, A, ha, ok_of_toOption hv, ok_of_toOption hA, hAP⟩
  obtain ⟨-, hpd, hsym⟩ := model_weights hI hal (r := 0) (by rw [hy]; rfl) hW
  obtain ⟨best, q1, q2, -⟩ := C45_maximum 0 P hsym (fun z => by
      by_cases hz : z = 0
      · subst hz; simp
      · exact (hpd z hz).le) (fun i : Fin m => b.dt.getD i 0) (fun i => b.n.getD i 0) g c hg hN
  exact ⟨⟨hI, hal⟩, m, P, 0, best, by rw [hy]; rfl, hW, q1, q2⟩

/-- The weights for the times 6, 12, 18, where `a / κ = 1`. -/
def exModelP : Matrix (Fin 3) (Fin 3) ℚ := !![1 / 108, -1 / 432, 0; -1 / 432, 1 / 432, -1 / 1296; 0, -1 / 1296, 1 / 1944]

theorem exModel_one {b : Boot ℚ} {y : List ℚ} (g c : ℚ) (h1 : b.n = y) (h3 : b.nO = [6, 3, 2]) (h4 : b.dt = [6, 12, 18]) (hy : y.length = 3) (hg : 0 ≤ g)
    (hN : form exModelP (fun i => exIncr [6, 12, 18] i) (lineResidual (fun i : Fin 3 => exIncr [6, 12, 18] i) (fun i => exIncr y i) g c) = 0 ∧
      form exModelP (fun _ => 1) (lineResidual (fun i : Fin 3 => exIncr [6, 12, 18] i) (fun i => exIncr y i) g c) = 0) : (InverseCounts b ∧ Aligned b) ∧ ModelFit b 0 g c :=
  exModel_fit (A := !![216, 432, 648; 432, 1728, 2592; 648, 2592, 5832]) (v := [some 216, some 1728, some 5832]) 36 36 g c h1 h3 h4 hy rfl rfl (by norm_num) (by decide +kernel) (by decide +kernel) (by decide +kernel)
    (by decide +kernel) (by decide +kernel) (by decide +kernel) (by decide +kernel) hg hN

/-- With twice the observations and another coefficient. -/
theorem exModel_two {b : Boot ℚ} {y : List ℚ} (g c : ℚ) (h1 : b.n = y) (h3 : b.nO = [12, 6, 4]) (h4 : b.dt = [6, 12, 18]) (hy : y.length = 3) (hg : 0 ≤ g)
    (hN : form ((2 / 3 : ℚ) • exModelP) (fun i => exIncr [6, 12, 18] i) (lineResidual (fun i : Fin 3 => exIncr [6, 12, 18] i) (fun i => exIncr y i) g c) = 0 ∧
      form ((2 / 3 : ℚ) • exModelP) (fun _ => 1) (lineResidual (fun i : Fin 3 => exIncr [6, 12, 18] i) (fun i => exIncr y i) g c) = 0) : (InverseCounts b ∧ Aligned b) ∧ ModelFit b 0 g c :=
  exModel_fit (A := !![324, 648, 972; 648, 2592, 3888; 972, 3888, 8748]) (v := [some 324, some 2592, some 8748]) 108 72 g c h1 h3 h4 hy rfl rfl (by norm_num) (by decide +kernel) (by decide +kernel) (by decide +kernel)
    (by decide +kernel) (by decide +kernel) (by decide +kernel) (by decide +kernel) hg hN

/-- `C146_same` on the trajectory of `C145_violated`: alone and pooled with its copy, the random walk model gives the gradient 23/120 and the intercept -13/20. -/
example : ∃ Z Z' : Analyzer ℚ, exStepsRun [exStepsA] = .ok (Z, ()) ∧ exStepsRun [exStepsA, exStepsA] = .ok (Z', ()) ∧ Z.diff.v ≠ Z'.diff.v ∧ ModelFit Z.diff 0 (23 / 120) (-13 / 20) ∧
    ∀ g c, ModelFit Z'.diff 0 g c → g = 23 / 120 ∧ c = -13 / 20 := by
  obtain ⟨Z, e, n, v, o, t⟩ := exSteps_values (x := exStepsRun [exStepsA]) (y := [1 / 2, 7 / 4, 5 / 2]) (v := [1 / 20, 3 / 4, 9 / 4]) (n := [6, 3, 2]) (by decide +kernel)
  obtain ⟨Z', e', n', v', o', t'⟩ := exSteps_values (x := exStepsRun [exStepsA, exStepsA]) (y := [1 / 2, 7 / 4, 5 / 2]) (v := [1 / 44, 9 / 28, 3 / 4]) (n := [12, 6, 4]) (by decide +kernel)
  obtain ⟨k, f⟩ := exModel_one (23 / 120) (-13 / 20) n o t rfl (by norm_num) (by decide +kernel)
  obtain ⟨k', -⟩ := exModel_two (23 / 120) (-13 / 20) n' o' t' rfl (by norm_num) (by decide +kernel)
  exact ⟨Z, Z', e, e', by rw [v, v']; decide +kernel, f, fun g c h => C146_same Z.diff Z'.diff 0 (by rw [n]; decide) k k' (by rw [n, n']) (by rw [t, t']) _ _ g c f h⟩

/-- `C146_pool` on two different trajectories: gradients 23/120 and 53/72, of the pool 167/360; the intercepts are -13/20, -11/4 and -17/10. -/
example : ∃ (A : Base ℚ) (b b₁ b₂ : Boot ℚ) (u u' : Parsed ℚ), [exStepsA, exStepsB].mapM (aseParser exNum exParams exSelect 1) = .ok [u, u'] ∧
    fromAse exNum exParams exSelect 1 (some "identical") (.several [exStepsA, exStepsB]) = .ok A ∧
    msdBootstrap id (exOracle ℚ) (exOpts ℚ) () A.deltaT A.disp3d A.nO 1 "xyz" = .ok (b, ()) ∧ msdBootstrap id (exOracle ℚ) (exOpts ℚ) () u.deltaT u.disp3d u.nO 1 "xyz" = .ok (b₁, ()) ∧
    msdBootstrap id (exOracle ℚ) (exOpts ℚ) () u'.deltaT u'.disp3d u'.nO 1 "xyz" = .ok (b₂, ()) ∧ ModelFit b₁ 0 (23 / 120) (-13 / 20) ∧ ModelFit b₂ 0 (53 / 72) (-11 / 4) ∧
    ModelFit b 0 (167 / 360) (-17 / 10) ∧ ∀ g c, ModelFit b 0 g c → g = (23 / 120 + 53 / 72) / 2 ∧ c = (-13 / 20 + -11 / 4) / 2 := by
  obtain ⟨u, b₁, e₁, s₁, d₁, m₁, n₁, v₁, o₁, t₁⟩ := exSteps_parsed (x := aseParser exNum exParams exSelect 1 exStepsA) (y := [1 / 2, 7 / 4, 5 / 2]) (v := [1 / 20, 3 / 4, 9 / 4]) (n := [6, 3, 2])
    (by decide +kernel) (by decide +kernel) (by decide +kernel)
  obtain ⟨u', b₂, e₂, s₂, d₂, m₂, n₂, v₂, o₂, t₂⟩ := exSteps_parsed (x := aseParser exNum exParams exSelect 1 exStepsB) (y := [5 / 3, 25 / 4, 10]) (v := [26 / 45, 59 / 4, 36]) (n := [6, 3, 2])
    (by decide +kernel) (by decide +kernel) (by decide +kernel)
  obtain ⟨Z, e, n, v, o, t⟩ := exSteps_values (x := exStepsRun [exStepsA, exStepsB]) (y := [13 / 12, 4, 25 / 4]) (v := [25 / 144, 30 / 7, 177 / 16]) (n := [12, 6, 4]) (by decide +kernel)
  obtain ⟨A, hA, -, m⟩ := diffusion_inv e
  have hp : [exStepsA, exStepsB].mapM (aseParser exNum exParams exSelect 1) = .ok [u, u'] := by
    simp [List.mapM_cons, e₁, e₂, bind, Except.bind, pure, Except.pure]
  have hs : SameShape [u, u'] 3 (fun _ => 2) (fun i => 3 - i) := by
    intro w hw
    rcases List.mem_cons.1 hw with rfl | hw
    · exact s₁ _ (by simp)
    · exact s₂ _ hw
  obtain ⟨i₁, f₁⟩ := exModel_one (23 / 120) (-13 / 20) n₁ o₁ t₁ rfl (by norm_num) (by decide +kernel)
  obtain ⟨i₂, f₂⟩ := exModel_one (53 / 72) (-11 / 4) n₂ o₂ t₂ rfl (by norm_num) (by decide +kernel)
  obtain ⟨i₃, f₃⟩ := exModel_two (167 / 360) (-17 / 10) n o t rfl (by norm_num) (by decide +kernel)
  refine ⟨A, Z.diff, b₁, b₂, u, u', hp, hA, m, m₁, m₂, f₁, f₂, f₃, fun g c h => ?_⟩
  have := C146_pool (aseParser exNum exParams exSelect 1) _ [exStepsA, exStepsB] u [u'] hp 3 _ _ hs id (exOracle ℚ) (exOpts ℚ) rfl
    1 "xyz" A hA Z.diff () () m [b₁, b₂] (.cons ⟨_, _, m₁⟩ (.cons ⟨_, _, m₂⟩ .nil)) (by
      intro x hx
      simp only [List.mem_cons, List.not_mem_nil, or_false] at hx
      rcases hx with rfl | rfl | rfl
      · exact i₃
      · exact i₁
      · exact i₂) (by
      intro x hx
      simp only [List.mem_cons, List.not_mem_nil, or_false] at hx
      rcases hx with rfl | rfl
      · rw [t₁, t]
      · rw [t₂, t]) 0 (by rw [n]; decide) g c h [(23 / 120, -13 / 20), (53 / 72, -11 / 4)] (.cons ⟨f₁, by norm_num⟩ (.cons ⟨f₂, by norm_num⟩ .nil))
  simpa using this

/-- `C146_species` on the Li and Na atoms of C145. -/
example : ∃ Z₁ Z₂ Z₃ : Analyzer ℚ, exStepsSpecies ["Li"] = .ok (Z₁, ()) ∧ exStepsSpecies ["Na"] = .ok (Z₂, ()) ∧ exStepsSpecies (["Li"] ++ ["Na"]) = .ok (Z₃, ()) ∧
    ModelFit Z₁.diff 0 (23 / 120) (-13 / 20) ∧ ModelFit Z₂.diff 0 (53 / 72) (-11 / 4) ∧ ModelFit Z₃.diff 0 (167 / 360) (-17 / 10) ∧
    ∀ g c, ModelFit Z₃.diff 0 g c → g = (2 * (23 / 120) + 2 * (53 / 72)) / (2 + 2) ∧ c = (2 * (-13 / 20) + 2 * (-11 / 4)) / (2 + 2) := by
  obtain ⟨Z₁, e₁, n₁, v₁, o₁, t₁⟩ := exSteps_values (x := exStepsSpecies ["Li"]) (y := [1 / 2, 7 / 4, 5 / 2]) (v := [1 / 20, 3 / 4, 9 / 4]) (n := [6, 3, 2]) (by decide +kernel)
  obtain ⟨Z₂, e₂, n₂, v₂, o₂, t₂⟩ := exSteps_values (x := exStepsSpecies ["Na"]) (y := [5 / 3, 25 / 4, 10]) (v := [26 / 45, 59 / 4, 36]) (n := [6, 3, 2]) (by decide +kernel)
  obtain ⟨Z₃, e, n, v, o, t⟩ := exSteps_values (x := exStepsSpecies (["Li"] ++ ["Na"])) (y := [13 / 12, 4, 25 / 4]) (v := [25 / 144, 30 / 7, 177 / 16]) (n := [12, 6, 4]) (by decide +kernel)
  obtain ⟨i₁, f₁⟩ := exModel_one (23 / 120) (-13 / 20) n₁ o₁ t₁ rfl (by norm_num) (by decide +kernel)
  obtain ⟨i₂, f₂⟩ := exModel_one (53 / 72) (-11 / 4) n₂ o₂ t₂ rfl (by norm_num) (by decide +kernel)
  obtain ⟨i₃, f₃⟩ := exModel_two (167 / 360) (-17 / 10) n o t rfl (by norm_num) (by decide +kernel)
  refine ⟨Z₁, Z₂, Z₃, e₁, e₂, e, f₁, f₂, f₃, fun g c h => ?_⟩
  have := C146_species exNum exParams exMixedSelect _ rfl ["Li"] ["Na"] (by decide) ["Li", "Na", "Li", "O", "Na"] (by decide) (by decide)
    (fun S => fromAse exNum exParams S 1 none (.one exStepsMixed)) (.ase 1 exStepsMixed (by simp [exStepsMixed])) id (exOracle ℚ) exUnc rfl () () () () () () Z₁ Z₂ Z₃ e₁ e₂ e (by
      intro x hx
      simp only [List.mem_cons, List.not_mem_nil, or_false] at hx
      rcases hx with rfl | rfl | rfl
      · exact i₁
      · exact i₂
      · exact i₃) 0 (by rw [n]; decide) _ _ g _ _ c (by norm_num) (by norm_num) f₁ f₂ h
  rw [show (chosen ["Li", "Na", "Li", "O", "Na"] ["Li"]).length = 2 from by decide, show (chosen ["Li", "Na", "Li", "O", "Na"] ["Na"]).length = 2 from by decide] at this
  exact_mod_cast this

/-- `C146_axes` on the atoms of `C136_violated`: the gradients 19/5 along x, 36/5 along y and 11 in the plane add up, and so do the intercepts. -/
example : ∃ b b₁ b₂ : Boot ℚ, exAxisRun "xy" = .ok (b, ()) ∧ exAxisRun "x" = .ok (b₁, ()) ∧ exAxisRun "y" = .ok (b₂, ()) ∧ ModelFit b 0 11 (-6) ∧ ModelFit b₁ 0 (19 / 5) (-23 / 10) ∧ ModelFit b₂ 0 (36 / 5) (-37 / 10) ∧
    ∀ g c, ModelFit b 0 g c → g = 19 / 5 + 36 / 5 ∧ c = -23 / 10 + -37 / 10 := by
  have use : ∀ {b : Boot ℚ} {y : List ℚ} (g c : ℚ), b.n = y → b.nO = [6, 3, 2] → b.dt = [1, 2, 3] → y.length = 3 → 0 ≤ g →
      form ((216 : ℚ) • exModelP) (fun i => exIncr [1, 2, 3] i) (lineResidual (fun i : Fin 3 => exIncr [1, 2, 3] i) (fun i => exIncr y i) g c) = 0 ∧
      form ((216 : ℚ) • exModelP) (fun _ => 1) (lineResidual (fun i : Fin 3 => exIncr [1, 2, 3] i) (fun i => exIncr y i) g c) = 0 → (InverseCounts b ∧ Aligned b) ∧ ModelFit b 0 g c :=
    fun g c h1 h3 h4 hy hg hN => exModel_fit (A := !![1, 2, 3; 2, 8, 12; 3, 12, 27]) (v := [some 1, some 8, some 27]) 6 6 g c h1 h3 h4 hy rfl rfl (by norm_num) (by decide +kernel) (by decide +kernel) (by decide +kernel)
      (by decide +kernel) (by decide +kernel) (by decide +kernel) (by decide +kernel) hg hN
  obtain ⟨b, e, e1, -, e3, e4, -⟩ := exAxis_xy
  obtain ⟨b₁, f, f1, -, f3, f4, -⟩ := exAxis_x
  obtain ⟨b₂, k, k1, -, k3, k4, -⟩ := exAxis_y
  obtain ⟨i, r⟩ := use 11 (-6) e1 e3 e4 rfl (by norm_num) (by decide +kernel)
  obtain ⟨i₁, r₁⟩ := use (19 / 5) (-23 / 10) f1 f3 f4 rfl (by norm_num) (by decide +kernel)
  obtain ⟨i₂, r₂⟩ := use (36 / 5) (-37 / 10) k1 k3 k4 rfl (by norm_num) (by decide +kernel)
  refine ⟨b, b₁, b₂, e, f, k, r, r₁, r₂, fun g c h => ?_⟩
  refine C146_axes _ _ _ rfl _ _ _ _ _ _ _ 1 "xy" "x" "y" (by decide +kernel) (by decide +kernel) b b₁ b₂ e f k ?_ 0 (by rw [e1]; decide) g _ _ c _ _ (by norm_num) (by norm_num) h r₁ r₂
  intro x hx
  simp only [List.mem_cons, List.not_mem_nil, or_false] at hx
  rcases hx with rfl | rfl | rfl
  · exact i
  · exact i₁
  · exact i₂

/-- `C146_total_axes` on the atoms of C136: gradients 59/5 = 117/20 + 119/20. -/
example : ∃ b b₁ b₂ : Boot ℚ, exTotalRun "xy" = .ok (b, ()) ∧ exTotalRun "x" = .ok (b₁, ()) ∧ exTotalRun "y" = .ok (b₂, ()) ∧ ModelFit b 0 (59 / 5) (-28 / 5) ∧ ModelFit b₁ 0 (117 / 20) (-69 / 20) ∧
    ModelFit b₂ 0 (119 / 20) (-43 / 20) ∧ ∀ g c, ModelFit b 0 g c → g = 117 / 20 + 119 / 20 ∧ c = -69 / 20 + -43 / 20 := by
  have use : ∀ {d : String} {y : List ℚ} (g c : ℚ), ((exTotalRun d).toOption.map fun r => r.1.n) = some y ∧ ((exTotalRun d).toOption.map fun r => (r.1.nO, r.1.dt)) = some ([5, 5 / 2], [1, 2]) →
      y.length = 2 → 0 ≤ g → form (!![2, -1 / 2; -1 / 2, 1 / 4] : Matrix (Fin 2) (Fin 2) ℚ) (fun i => exIncr [1, 2] i) (lineResidual (fun i : Fin 2 => exIncr [1, 2] i) (fun i => exIncr y i) g c) = 0 ∧
      form (!![2, -1 / 2; -1 / 2, 1 / 4] : Matrix (Fin 2) (Fin 2) ℚ) (fun _ => 1) (lineResidual (fun i : Fin 2 => exIncr [1, 2] i) (fun i => exIncr y i) g c) = 0 →
      ∃ b, exTotalRun d = .ok (b, ()) ∧ b.n = y ∧ (InverseCounts b ∧ Aligned b) ∧ ModelFit b 0 g c := by
    intro d y g c h hy hg hN
    obtain ⟨h1, h2⟩ := h
    cases e : exTotalRun d with
    | error e' => rw [e] at h1; cases h1
    | ok r =>
      rw [e] at h1 h2
      have h2 := Option.some.inj h2
      simp only [Prod.mk.injEq] at h2
      exact ⟨r.1, rfl, Option.some.inj h1, exModel_fit (A := !![1, 2; 2, 8]) (v := [some 1, some 8]) 5 5 g c (Option.some.inj h1) h2.1 h2.2 hy rfl rfl (by norm_num) (by decide +kernel) (by decide +kernel) (by decide +kernel)
        (by decide +kernel) (by decide +kernel) (by decide +kernel) (by decide +kernel) hg hN⟩
  obtain ⟨b, e, e1, i, r⟩ := use (d := "xy") (y := [31 / 5, 18]) (59 / 5) (-28 / 5) (by decide +kernel) rfl (by norm_num) (by decide +kernel)
  obtain ⟨b₁, f, -, i₁, r₁⟩ := use (d := "x") (y := [12 / 5, 33 / 4]) (117 / 20) (-69 / 20) (by decide +kernel) rfl (by norm_num) (by decide +kernel)
  obtain ⟨b₂, k, -, i₂, r₂⟩ := use (d := "y") (y := [19 / 5, 39 / 4]) (119 / 20) (-43 / 20) (by decide +kernel) rfl (by norm_num) (by decide +kernel)
  refine ⟨b, b₁, b₂, e, f, k, r, r₁, r₂, fun g c h => ?_⟩
  refine C146_total_axes _ _ _ rfl _ _ _ _ _ _ _ "xy" "x" "y" (by decide +kernel) (by decide +kernel) b b₁ b₂ e f k ?_ 0 (by rw [e1]; decide) g _ _ c _ _ (by norm_num) (by norm_num) h r₁ r₂
  intro x hx
  simp only [List.mem_cons, List.not_mem_nil, or_false] at hx
  rcases hx with rfl | rfl | rfl
  · exact i
  · exact i₁
  · exact i₂

end Kinisi
