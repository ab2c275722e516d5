import Verif.Props.Chords
import Verif.Props.FitRounding

/-!
# C151: fits of every `k`-th interval
-/

set_option linter.unusedSectionVars false
set_option linter.unusedVariables false

namespace Kinisi
open Spec
variable {K : Type} [Field K] [LinearOrder K] [IsStrictOrderedRing K] [FloorRing K] {G : Type}

/-- The line through the origin with gradient `g` has the highest likelihood in a fit of `b` from position `r` on with `model=True`, without an intercept. -/
def ModelRay (b : Boot K) (r : ℕ) (g : K) : Prop :=
  ∃ (m : ℕ) (P : Matrix (Fin m) (Fin m) K) (ld best : K), m = b.n.length - r ∧ ModelWeights b r P ∧ BestRay (fitLL b r ld P) g best

/-- The matrix of a fit with the random walk model, from the times and the numbers of observations. -/
theorem model_matrix {b : Boot K} {r m : ℕ} {P : Matrix (Fin m) (Fin m) K} (l1 : b.dt.length = b.n.length) (l2 : b.nO.length = b.n.length) (hn : ∀ N ∈ b.nO, 0 < N) (hm : m = b.n.length - r)
    (hP : ModelWeights b r P) : ∃ (a : K) (A : Matrix (Fin m) (Fin m) K), 0 < a ∧ A * P = 1 ∧ (∀ i j, A i j = A j i) ∧ (∀ i j, P i j = P j i) ∧
      (∀ i j, i ≤ j → A i j = a * ((b.dt.drop r).getD i 0 ^ 2 / (b.nO.drop r).getD j 0)) ∧
      ((∀ (i : ℕ) (t N : K), r ≤ i → b.dt[i]? = some t → b.nO[i]? = some N → 0 < t ^ 2 * N) →
        (∀ (i j : ℕ) (t t' N N' : K), i < j → b.dt[i]? = some t → b.dt[j]? = some t' → b.nO[i]? = some N → b.nO[j]? = some N' → t ^ 2 * N < t' ^ 2 * N') → PD A ∧ PD P) := by
  obtain ⟨a, v, A, ha, hv, hA, hAP⟩ := hP
  have gt : ∀ i : Fin m, b.dt[r + i.val]? = some ((b.dt.drop r).getD i 0) := fun i => by
    rw [List.getD_eq_getElem?_getD, List.getElem?_drop, List.getElem?_eq_getElem (by have := i.isLt; omega)]; rfl
  have gn : ∀ i : Fin m, b.nO[r + i.val]? = some ((b.nO.drop r).getD i 0) := fun i => by
    rw [List.getD_eq_getElem?_getD, List.getElem?_drop, List.getElem?_eq_getElem (by have := i.isLt; omega)]; rfl
  set T : Fin m → K := fun i => (b.dt.drop r).getD i 0 with hT
  set N : Fin m → K := fun i => (b.nO.drop r).getD i 0 with hN
  have e1 : b.dt.drop r = List.ofFn T := by
    apply List.ext_getElem
    · simp; omega
    · intro i h1 h2
      simp only [List.getElem_ofFn, hT, List.getD_eq_getElem?_getD, List.getElem?_eq_getElem h1, Option.getD_some]
  have e2 : b.nO.drop r = List.ofFn N := by
    apply List.ext_getElem
    · simp; omega
    · intro i h1 h2
      simp only [List.getElem_ofFn, hN, List.getD_eq_getElem?_getD, List.getElem?_eq_getElem h1, Option.getD_some]
  have hNp : ∀ i, 0 < N i := fun i => hn _ (List.mem_of_getElem? (gn i))
  have f1 : modelVariance (List.ofFn N) (List.ofFn T) a = .ok (List.ofFn fun i => some (a / N i * T i ^ 2)) := by
    unfold modelVariance
    rw [if_pos (by simp)]
    congr 1
    apply List.ext_getElem
    · simp
    · intro i h1 h2
      simp only [List.getElem_map, List.getElem_zip, List.getElem_ofFn]
      have hi : i < m := by simpa using h2
      simp only [npDiv, Option.bind_some, if_neg (hNp ⟨i, hi⟩).ne', npMul, Option.map_some]
  rw [e1, e2, f1] at hv
  obtain rfl := Except.ok.inj hv
  obtain ⟨A', h1, h2, -, h3⟩ := C40_covariance (fun i => a / N i * T i ^ 2) N [] fun i => (hNp i).ne'
  obtain ⟨-, h4⟩ := C41_psd_iff _ N [] hNp A' h1
  rw [List.append_nil] at h1
  rw [e2, h1] at hA
  obtain rfl := rowsOf_injective (Except.ok.inj hA)
  have hPA : P * A' = 1 := mul_eq_one_comm.mp hAP
  have hsym : ∀ i j, P i j = P j i := by
    have hAt : A'.transpose = A' := by ext i j; exact h2 j i
    have : P.transpose = P := by
      calc P.transpose = P.transpose * (A' * P) := by rw [hAP, mul_one]
        _ = (A' * P).transpose * P := by rw [Matrix.transpose_mul, hAt, mul_assoc]
        _ = P := by rw [hAP, Matrix.transpose_one, one_mul]
    intro i j
    exact congrFun (congrFun this j) i
  refine ⟨a, A', ha, hAP, h2, hsym, fun i j hij => ?_, fun hpos hinc => ?_⟩
  · rw [h3 i j hij]
    have h5 := (hNp i).ne'
    have h6 := (hNp j).ne'
    show a / N i * T i ^ 2 * (N i / N j) = a * (T i ^ 2 / N j)
    field_simp
  · have hw : ∀ i, a / N i * T i ^ 2 * N i ^ 2 = a * (T i ^ 2 * N i) := by
      intro i
      have := (hNp i).ne'
      field_simp
    have hpd : PD A' := h4.2 ⟨fun i => by rw [hw]; exact mul_pos ha (hpos _ _ _ (by omega) (gt i) (gn i)), fun i j hij => by
      rw [hw, hw]
      exact mul_lt_mul_of_pos_left (hinc _ _ _ _ _ _ (by have : i.val < j.val := hij; omega) (gt i) (gt j) (gn i) (gn j)) ha⟩
    exact ⟨hpd, pd_inverse hsym hPA hpd⟩

/-- The weights of the random walk model are positive definite when the squared times grow faster than the numbers of observations fall. -/
theorem ordered_weights {b : Boot K} {r m : ℕ} {P : Matrix (Fin m) (Fin m) K} (l1 : b.dt.length = b.n.length) (l2 : b.nO.length = b.n.length) (hn : ∀ N ∈ b.nO, 0 < N) (ht : ∀ t ∈ b.dt, 0 < t)
    (hinc : ∀ (i j : ℕ) (t t' N N' : K), i < j → b.dt[i]? = some t → b.dt[j]? = some t' → b.nO[i]? = some N → b.nO[j]? = some N' → t ^ 2 * N < t' ^ 2 * N') (hm : m = b.n.length - r)
    (hP : ModelWeights b r P) : PD P ∧ ∀ i j, P i j = P j i := by
  obtain ⟨a, A, -, -, -, h1, -, h2⟩ := model_matrix l1 l2 hn hm hP
  exact ⟨(h2 (fun i t N _ h3 h4 => mul_pos (pow_pos (ht t (List.mem_of_getElem? h3)) 2) (hn N (List.mem_of_getElem? h4))) hinc).2, h1⟩

/-- Whatever coefficient `curve_fit` has found, the weights are the same up to a factor. -/
theorem model_scale {b : Boot K} {r m : ℕ} {P W : Matrix (Fin m) (Fin m) K} (l1 : b.dt.length = b.n.length) (l2 : b.nO.length = b.n.length) (hn : ∀ N ∈ b.nO, 0 < N) (hm : m = b.n.length - r)
    (hP : ModelWeights b r P) (hW : ModelWeights b r W) : ∃ s : K, 0 < s ∧ W = s • P := by
  obtain ⟨a, A, a0, a1, a2, -, a3, -⟩ := model_matrix l1 l2 hn hm hP
  obtain ⟨c, C, c0, c1, c2, -, c3, -⟩ := model_matrix l1 l2 hn hm hW
  have e : A = (a / c) • C := by
    ext i j
    rw [Matrix.smul_apply, smul_eq_mul]
    rcases le_total i j with h | h
    · rw [a3 i j h, c3 i j h, ← mul_assoc, div_mul_cancel₀ _ c0.ne']
    · rw [a2, c2, a3 j i h, c3 j i h, ← mul_assoc, div_mul_cancel₀ _ c0.ne']
  refine ⟨a / c, div_pos a0 c0, ?_⟩
  have h1 : W * C = 1 := mul_eq_one_comm.mp c1
  calc W = W * (A * P) := by rw [a1, mul_one]
    _ = (a / c) • (W * C * P) := by rw [e, Matrix.smul_mul, Matrix.mul_smul, mul_assoc]
    _ = (a / c) • P := by rw [h1, one_mul]

/-- The lines of highest likelihood, from a solution of the normal equations. -/
theorem solved_fit {b : Boot K} {r m : ℕ} {P : Matrix (Fin m) (Fin m) K} (l1 : b.dt.length = b.n.length) (l2 : b.nO.length = b.n.length) (hn : ∀ N ∈ b.nO, 0 < N) (hm : m = b.n.length - r) (hP : ModelWeights b r P)
    (hpd : PD P) (htwo : ∃ i j : Fin m, (b.dt.drop r).getD i 0 ≠ (b.dt.drop r).getD j 0) (g c : K) (hg : 0 ≤ g)
    (hN : NormalEquations P (fun i : Fin m => (b.dt.drop r).getD i 0) (fun i => (b.n.drop r).getD i 0) g c) : ModelFit b r g c ∧ ∀ g' c', ModelFit b r g' c' → g' = g ∧ c' = c := by
  obtain ⟨-, -, -, -, -, sym, -⟩ := model_matrix l1 l2 hn hm hP
  have psd : PSD P := fun z => by
    by_cases hz : z = 0
    · subst hz; simp
    · exact (hpd z hz).le
  constructor
  · obtain ⟨best, q1, q2, -⟩ := C45_maximum 0 P sym psd _ _ g c hg hN
    exact ⟨m, P, 0, best, hm, hP, q1, q2⟩
  · rintro g' c' ⟨m', W, ld, best, hm', hW, q1, q2⟩
    obtain rfl : m = m' := by omega
    obtain ⟨s, hs, rfl⟩ := model_scale l1 l2 hn hm hP hW
    have pd' : PD (s • P) := fun z hz => by
      have := mul_pos hs (hpd z hz)
      simpa [Matrix.smul_apply, Finset.mul_sum, mul_assoc, mul_left_comm] using this
    obtain ⟨best', w1, w2, w3⟩ := C45_maximum ld (s • P) (fun i j => by simp only [Matrix.smul_apply, sym i j]) (fun z => by
      by_cases hz : z = 0
      · subst hz; simp
      · exact (pd' z hz).le) _ _ g c hg ⟨by rw [form_smul_matrix, hN.1, mul_zero], by rw [form_smul_matrix, hN.2, mul_zero]⟩
    have e : best = best' := le_antisymm (w2 _ _ _ q1) (q2 _ _ _ w1)
    exact w3 pd' htwo g' c' (e ▸ q1)

/-- The lines of highest likelihood through the origin. -/
theorem solved_ray {b : Boot K} {r m : ℕ} {P : Matrix (Fin m) (Fin m) K} (l1 : b.dt.length = b.n.length) (l2 : b.nO.length = b.n.length) (hn : ∀ N ∈ b.nO, 0 < N) (hm : m = b.n.length - r) (hP : ModelWeights b r P)
    (hpd : PD P) (hone : ∃ i : Fin m, (b.dt.drop r).getD i 0 ≠ 0) (g : K) (hg : 0 ≤ g)
    (hN : NormalEquation P (fun i : Fin m => (b.dt.drop r).getD i 0) (fun i => (b.n.drop r).getD i 0) g) : ModelRay b r g ∧ ∀ g', ModelRay b r g' → g' = g := by
  obtain ⟨-, -, -, -, -, sym, -⟩ := model_matrix l1 l2 hn hm hP
  have psd : PSD P := fun z => by
    by_cases hz : z = 0
    · subst hz; simp
    · exact (hpd z hz).le
  constructor
  · obtain ⟨best, q1, q2, -⟩ := C45_maximum_no_intercept 0 P sym psd _ _ g hg hN
    exact ⟨m, P, 0, best, hm, hP, q1, q2⟩
  · rintro g' ⟨m', W, ld, best, hm', hW, q1, q2⟩
    obtain rfl : m = m' := by omega
    obtain ⟨s, hs, rfl⟩ := model_scale l1 l2 hn hm hP hW
    have pd' : PD (s • P) := fun z hz => by
      have := mul_pos hs (hpd z hz)
      simpa [Matrix.smul_apply, Finset.mul_sum, mul_assoc, mul_left_comm] using this
    obtain ⟨best', w1, w2, w3⟩ := C45_maximum_no_intercept ld (s • P) (fun i j => by simp only [Matrix.smul_apply, sym i j]) (fun z => by
      by_cases hz : z = 0
      · subst hz; simp
      · exact (pd' z hz).le) _ _ g hg (by unfold NormalEquation at hN ⊢; rw [form_smul_matrix, hN, mul_zero])
    have e : best = best' := le_antisymm (w2 _ _ q1) (q2 _ _ w1)
    exact w3 pd' hone g' (e ▸ q1)

/-- What the loop has recorded of every `k`-th interval. -/
theorem recorded_sub {sq : K → K} {o : Oracle K G} {opt : BootOpts K} {Q : Quantity K} {B : Base K} {d : String} {k : ℕ} (hk : 0 < k) {b0 b1 b : Boot K} {q : ℕ}
    (hb : bootInit B.deltaT B.disp3d B.nO (k : ℤ) d = .ok b0) (hq : q ≤ b0.displacements.length) (hrec : Recorded sq o opt Q B.nO b0 q b) (he : b = { b1 with nO := B.nO.take q }) (hl : B.nO.length = B.disp3d.length) :
    b.dt.length = b.n.length ∧ b.nO.length = b.n.length ∧ (∀ i < b.n.length, b.dt[i]? = B.deltaT[k * i]?) ∧ ∀ i < b.n.length, b.nO[i]? = B.nO[i]? := by
  have hstr : ∀ {α : Type} (l : List α), pyStride (k : ℤ) l = .ok (stride k l) := by
    intro α l
    unfold pyStride
    rw [if_neg (by omega), if_pos (by omega)]
    simp
  obtain ⟨ds, dts, sel, d0, i1, i2, -, -, rfl⟩ := bootInit_inv hb
  rw [hstr] at i1 i2
  obtain rfl := Except.ok.inj i1
  obtain rfl := Except.ok.inj i2
  have hnO : b.nO = B.nO.take q := by rw [he]
  refine ⟨hrec.ldt.trans hrec.ln.symm, ?_, fun i hi => ?_, fun i hi => ?_⟩
  · have : (stride k B.disp3d).length ≤ B.disp3d.length := by
      by_contra hlt
      have h1 : (stride k B.disp3d)[B.disp3d.length]? = B.disp3d[k * B.disp3d.length]? := stride_getElem? k hk _ _
      rw [List.getElem?_eq_getElem (by omega), List.getElem?_eq_none (Nat.le_mul_of_pos_left _ hk)] at h1
      cases h1
    rw [hnO, hrec.ln, List.length_take, hl]
    exact min_eq_left (hq.trans this)
  · rw [hrec.ln] at hi
    obtain ⟨a, l, m, w, t', -, -, -, -, e5, -, -, -, -, e10, -⟩ := hrec.entry i hi
    rw [e10, ← stride_getElem? k hk]
    exact e5.symm
  · rw [hrec.ln] at hi
    rw [hnO, List.getElem?_take, if_pos hi]

/-- **C151, what holds: the weights.** Every `k`-th interval of an evenly spaced grid, MSD, MSTD or MSCD of one trajectory in any format.  The matrix of a fit with the random walk model is positive definite, although the numbers of
observations belong to other intervals than the times.  Missing: that the weights are those of the intervals that are kept, see `C151_violated`. -/
theorem C151_definite_partial (E : Num K) (hfl : E.fl = id) (P : Params K) (hsm : P.sampling = "multi-origin") (hc : 0 < P.stepSkip.val * P.timeStep.val) (S : Select K) (fr : List (Frame K)) (uni : Universe K)
    (base : PyM (Base K)) (unit : K) (hb : ReadFrames E P S fr uni base unit) (sq : K → K) (o : Oracle K G) (U : UncParams K) (k : ℕ) (hk : 0 < k) (hsub : U.sub = (k : ℤ)) (charge : Charge K) (g₁ g₂ : G) (Z : Analyzer K)
    (h : diffusionAnalyzer sq o g₁ U base = .ok (Z, g₂) ∨ jumpAnalyzer sq o g₁ U base = .ok (Z, g₂) ∨ conductivityAnalyzer sq o g₁ U charge base = .ok (Z, g₂))
    (s d : K) (hs : 0 < s) (hd : 0 < d) (hgrid : ∀ (i : ℕ) (t : K), Z.deltaT[i]? = some t → t = s + d * i) :
    (Z.diff.dt.length = Z.diff.n.length ∧ ∀ i < Z.diff.n.length, Z.diff.dt.getD i 0 = s + d * (k * i)) ∧
      ∀ (r m : ℕ) (W : Matrix (Fin m) (Fin m) K), m = Z.diff.n.length - r → ModelWeights Z.diff r W → PD W ∧ ∀ i j, W i j = W j i := by
  have hpos : ∀ t ∈ Z.deltaT, 0 < t := fun t ht => by
    obtain ⟨i, hi⟩ := List.mem_iff_getElem?.1 ht
    rw [hgrid i t hi]
    have : (0 : K) ≤ i := Nat.cast_nonneg i
    positivity
  have hasc : Z.deltaT.Pairwise (· ≤ ·) := List.pairwise_iff_getElem.2 fun i j hi hj hij => by
    rw [hgrid i _ (List.getElem?_eq_getElem hi), hgrid j _ (List.getElem?_eq_getElem hj)]
    have : (i : K) ≤ j := by exact_mod_cast hij.le
    nlinarith
  obtain ⟨B, hB, hZ, q⟩ : ∃ B, base = .ok B ∧ Z.deltaT = B.deltaT ∧ (B.nO.length = B.disp3d.length →
      Z.diff.dt.length = Z.diff.n.length ∧ Z.diff.nO.length = Z.diff.n.length ∧ (∀ i < Z.diff.n.length, Z.diff.dt[i]? = B.deltaT[k * i]?) ∧ ∀ i < Z.diff.n.length, Z.diff.nO[i]? = B.nO[i]?) := by
    rcases h with h | h | h
    · obtain ⟨B, hB, rfl, m⟩ := diffusion_inv h
      rw [hsub] at m
      obtain ⟨b0, q, i1, iq, i2, -, b1, -, i3⟩ := msdBootstrap_inv m
      exact ⟨_, hB, rfl, recorded_sub hk i1 iq i2 i3⟩
    · obtain ⟨B, hB, rfl, m⟩ := jump_inv h
      rw [hsub] at m
      obtain ⟨b0, q, i1, iq, i2, -, b1, -, i3⟩ := mstdBootstrap_inv m
      exact ⟨_, hB, rfl, recorded_sub hk i1 (by omega) i2 i3⟩
    · obtain ⟨B, hB, rfl, m⟩ := conductivity_inv h
      rw [hsub] at m
      obtain ⟨b0, q, i1, iq, i2, -, b1, -, i3⟩ := mscdBootstrap_inv m
      exact ⟨_, hB, rfl, recorded_sub hk i1 (by omega) i2 i3⟩
  rw [hZ] at hpos hasc
  obtain ⟨hn, hl, κ, hκ⟩ := read_const hfl hsm hc hb hB hpos hasc
  obtain ⟨q1, q2, q3, q4⟩ := q hl
  rw [hZ] at hgrid
  have lt : ∀ {i : ℕ} {t : K}, Z.diff.dt[i]? = some t → i < Z.diff.n.length := fun h => by rw [← q1]; exact (List.getElem?_eq_some_iff.1 h).1
  have val : ∀ {i : ℕ} {t : K}, Z.diff.dt[i]? = some t → t = s + d * (k * i) := fun {i t} h => by
    have := hgrid _ _ ((q3 i (lt h)).symm.trans h)
    push_cast at this
    exact this
  have cnt : ∀ {i : ℕ} {N : K}, i < Z.diff.n.length → Z.diff.nO[i]? = some N → 0 < N ∧ N * (s + d * i) = κ := fun {i N} hi h => by
    have e := (q4 i hi).symm.trans h
    refine ⟨hn N (List.mem_of_getElem? e), ?_⟩
    obtain ⟨t, ht⟩ : ∃ t, B.deltaT[i]? = some t := by
      have h1 := q3 i hi
      have h2 : Z.diff.dt[i]? ≠ none := by rw [Ne, List.getElem?_eq_none_iff]; omega
      rw [h1, Ne, List.getElem?_eq_none_iff] at h2
      have : i ≤ k * i := Nat.le_mul_of_pos_left _ hk
      exact ⟨_, List.getElem?_eq_getElem (by omega)⟩
    rw [← hgrid i t ht]
    exact hκ i t N ht e
  refine ⟨⟨q1, fun i hi => ?_⟩, fun r m W hm hW => ordered_weights q1 q2 (fun N hN => ?_) (fun t ht => ?_) (fun i j t t' N N' hij h1 h2 h3 h4 => ?_) hm hW⟩
  · rw [List.getD_eq_getElem?_getD, List.getElem?_eq_getElem (by omega), Option.getD_some]
    exact val (List.getElem?_eq_getElem (by omega))
  · obtain ⟨i, hi⟩ := List.mem_iff_getElem?.1 hN
    exact (cnt (by rw [← q2]; exact (List.getElem?_eq_some_iff.1 hi).1) hi).1
  · obtain ⟨i, hi⟩ := List.mem_iff_getElem?.1 ht
    rw [val hi]
    have : (0 : K) ≤ i := Nat.cast_nonneg i
    have : (0 : K) ≤ k := Nat.cast_nonneg k
    positivity
  · obtain ⟨n1, c1⟩ := cnt (lt h1) h3
    obtain ⟨n2, c2⟩ := cnt (lt h2) h4
    rw [val h1, val h2]
    have i0 : (0 : K) ≤ i := Nat.cast_nonneg i
    have k1 : (1 : K) ≤ k := by exact_mod_cast hk
    have ij : (i : K) < j := by exact_mod_cast hij
    have p1 : 0 < s + d * (i : K) := by positivity
    have p2 : 0 < s + d * (j : K) := by have : (0 : K) ≤ j := Nat.cast_nonneg j; positivity
    have hκ0 : 0 < κ := by rw [← c1]; exact mul_pos n1 p1
    have e1 : N = κ / (s + d * i) := by rw [eq_div_iff p1.ne']; exact c1
    have e2 : N' = κ / (s + d * j) := by rw [eq_div_iff p2.ne']; exact c2
    rw [e1, e2, mul_div_assoc', mul_div_assoc', div_lt_div_iff₀ p1 p2]
    set x : K := d * (i : K) with hx
    set y : K := d * (j : K) with hy
    have x0 : 0 ≤ x := mul_nonneg hd.le i0
    have xy : x < y := mul_lt_mul_of_pos_left ij hd
    have ex : d * ((k : K) * i) = k * x := by rw [hx]; ring
    have ey : d * ((k : K) * j) = k * y := by rw [hy]; ring
    rw [ex, ey]
    have key : (s + k * x) ^ 2 * (s + y) < (s + k * y) ^ 2 * (s + x) := by
      have : (s + k * y) ^ 2 * (s + x) - (s + k * x) ^ 2 * (s + y) = (y - x) * ((2 * k - 1) * s ^ 2 + k ^ 2 * s * (x + y) + k ^ 2 * (x * y)) := by ring
      have : 0 < (y - x) * ((2 * k - 1) * s ^ 2 + k ^ 2 * s * (x + y) + k ^ 2 * (x * y)) := by
        have y0 : 0 < y := lt_of_le_of_lt x0 xy
        have : 0 < (2 * (k : K) - 1) * s ^ 2 := mul_pos (by linarith) (pow_pos hs 2)
        have : 0 ≤ (k : K) ^ 2 * s * (x + y) := by positivity
        have : 0 ≤ (k : K) ^ 2 * (x * y) := by positivity
        exact mul_pos (by linarith) (by linarith)
      linarith
    nlinarith [mul_lt_mul_of_pos_left key hκ0]

/-- **C151, what holds: lines.** If the kept values lie on a line with non-negative gradient, the fit of every `k`-th interval with the random walk model gives this line, and only it; without an intercept, if the line passes through
the origin. -/
theorem C151_line_partial (E : Num K) (hfl : E.fl = id) (P : Params K) (hsm : P.sampling = "multi-origin") (hc : 0 < P.stepSkip.val * P.timeStep.val) (S : Select K) (fr : List (Frame K)) (uni : Universe K)
    (base : PyM (Base K)) (unit : K) (hb : ReadFrames E P S fr uni base unit) (sq : K → K) (o : Oracle K G) (U : UncParams K) (k : ℕ) (hk : 0 < k) (hsub : U.sub = (k : ℤ)) (charge : Charge K) (g₁ g₂ : G) (Z : Analyzer K)
    (h : diffusionAnalyzer sq o g₁ U base = .ok (Z, g₂) ∨ jumpAnalyzer sq o g₁ U base = .ok (Z, g₂) ∨ conductivityAnalyzer sq o g₁ U charge base = .ok (Z, g₂))
    (s d : K) (hs : 0 < s) (hd : 0 < d) (hgrid : ∀ (i : ℕ) (t : K), Z.deltaT[i]? = some t → t = s + d * i) (r : ℕ) (g c : K) (hg : 0 ≤ g)
    (hline : ∀ i, r ≤ i → i < Z.diff.n.length → Z.diff.n.getD i 0 = g * Z.diff.dt.getD i 0 + c) :
    (r + 2 ≤ Z.diff.n.length → ∀ g' c', ModelFit Z.diff r g' c' → g' = g ∧ c' = c) ∧ (r < Z.diff.n.length → c = 0 → ∀ g', ModelRay Z.diff r g' → g' = g) := by
  obtain ⟨⟨l1, hdt⟩, hw⟩ := C151_definite_partial E hfl P hsm hc S fr uni base unit hb sq o U k hk hsub charge g₁ g₂ Z h s d hs hd hgrid
  have getD_drop : ∀ (l : List K) (i : ℕ), (l.drop r).getD i 0 = l.getD (r + i) 0 := fun l i => by rw [List.getD_eq_getElem?_getD, List.getElem?_drop, ← List.getD_eq_getElem?_getD]
  have psd : ∀ {m : ℕ} {W : Matrix (Fin m) (Fin m) K}, PD W → PSD W := fun hW z => by
    by_cases hz : z = 0
    · subst hz; simp
    · exact (hW z hz).le
  constructor
  · intro h2 g' c' ⟨m, W, ld, best, hm, hW, q1, q2⟩
    obtain ⟨pd, sym⟩ := hw r m W hm hW
    obtain ⟨best', w1, w2, w3⟩ := C87_exact_line ld W sym (psd pd) (fun i : Fin m => (Z.diff.dt.drop r).getD i 0) (fun i => (Z.diff.n.drop r).getD i 0) g c hg (fun i => by
      rw [getD_drop, getD_drop]
      exact hline _ (by omega) (by have := i.isLt; omega))
    have e : best = best' := le_antisymm (w2 _ _ _ q1) (q2 _ _ _ w1)
    refine w3 pd ⟨⟨0, by omega⟩, ⟨1, by omega⟩, ?_⟩ g' c' (e ▸ q1)
    show (Z.diff.dt.drop r).getD 0 0 ≠ (Z.diff.dt.drop r).getD 1 0
    rw [getD_drop, getD_drop, hdt _ (by omega), hdt _ (by omega)]
    push_cast
    have k1 : (0 : K) < k := by exact_mod_cast hk
    have := mul_pos hd k1
    intro e
    nlinarith
  · intro h2 h0 g' ⟨m, W, ld, best, hm, hW, q1, q2⟩
    obtain ⟨pd, sym⟩ := hw r m W hm hW
    have zero : ∀ i : Fin m, lineResidual (fun i : Fin m => (Z.diff.dt.drop r).getD i 0) (fun i => (Z.diff.n.drop r).getD i 0) g 0 i = 0 := fun i => by
      unfold lineResidual
      simp only [getD_drop]
      rw [hline _ (by omega) (by have := i.isLt; omega), h0]
      ring
    obtain ⟨best', w1, w2, w3⟩ := C45_maximum_no_intercept ld W sym (psd pd) (fun i : Fin m => (Z.diff.dt.drop r).getD i 0) (fun i => (Z.diff.n.drop r).getD i 0) g hg (by
      unfold NormalEquation form
      simp only [zero, mul_zero, Finset.sum_const_zero])
    have e : best = best' := le_antisymm (w2 _ _ q1) (q2 _ _ w1)
    refine w3 pd ⟨⟨0, by omega⟩, ?_⟩ g' (e ▸ q1)
    show (Z.diff.dt.drop r).getD 0 0 ≠ 0
    rw [getD_drop, hdt _ (by omega)]
    have : (0 : K) ≤ k := Nat.cast_nonneg k
    have : (0 : K) ≤ ((r + 0 : ℕ) : K) := Nat.cast_nonneg _
    positivity

/-! ## A trajectory of five frames -/

/-- Two Li atoms and an O atom at rest: in the four steps from frame to frame the Li atoms move by `a` and by `b` tenths of the cell along x. -/
def exFive (a b : List ℤ) : List (Frame ℚ) :=
  (List.range 5).map fun j : ℕ =>
    { symbols := ["Li", "O", "Li"]
      frac := [![((a.take j).sum : ℤ) / 10, 0, 0], ![0, 1 / 2, 0], ![((b.take j).sum : ℤ) / 10, 1 / 4, 0]]
      latt := exBox
      volume := 1000 }

/-- The analysis with `sub_sample_dt = k`. -/
def exFiveRun (a b : List ℤ) (k : ℤ) : PyM (Analyzer ℚ × Unit) :=
  diffusionAnalyzer id (exOracle ℚ) () { exUnc with sub := k } (fromAse exNum exParams exSelect 1 none (.one (exFive a b)))

theorem exFive_values {x : PyM (Analyzer ℚ × Unit)} {y n t : List ℚ} (h : (x.toOption.map fun r => (r.1.diff.n, r.1.diff.nO, r.1.diff.dt, r.1.deltaT)) = some (y, n, t, [6, 12, 18, 24, 30])) :
    ∃ Z, x = .ok (Z, ()) ∧ Z.diff.n = y ∧ Z.diff.nO = n ∧ Z.diff.dt = t ∧ Z.deltaT = [6, 12, 18, 24, 30] := by
  cases x with
  | error e' => cases h
  | ok r =>
    have h := Option.some.inj h
    simp only [Prod.mk.injEq] at h
    exact ⟨r.1, rfl, h.1, h.2.1, h.2.2.1, h.2.2.2⟩

theorem exFive_weights {b : Boot ℚ} {y n t : List ℚ} {v : List (Option ℚ)} {m : ℕ} {A P : Matrix (Fin m) (Fin m) ℚ} (h1 : b.n = y) (h3 : b.nO = n) (h4 : b.dt = t) (hy : y.length = m)
    (hv : (modelVariance n t 1).toOption = some v) (hA : (populateCovariance v n).toOption = some (rowsOf A)) (hAP : A * P = 1) (hlen : t.length = m ∧ n.length = m) (hn0 : ∀ N ∈ n, 0 < N) (ht0 : ∀ x ∈ t, 0 < x)
    (hinc : ∀ j < m, ∀ i < j, t.getD i 0 ^ 2 * n.getD i 0 < t.getD j 0 ^ 2 * n.getD j 0) :
    ModelWeights b 0 P ∧ PD P ∧ b.dt.length = b.n.length ∧ b.nO.length = b.n.length ∧ ∀ N ∈ b.nO, 0 < N := by
  subst h1 h3 h4
  have hW : ModelWeights b 0 P := ⟨1, v, A, one_pos, ok_of_toOption hv, ok_of_toOption hA, hAP⟩
  refine ⟨hW, (ordered_weights (r := 0) (by rw [hlen.1, hy]) (by rw [hlen.2, hy]) hn0 ht0 (fun i j t t' N N' hij q1 q2 q3 q4 => ?_) (by rw [hy]; rfl) hW).1, by rw [hlen.1, hy], by rw [hlen.2, hy], hn0⟩
  have := hinc j (by rw [← hlen.1]; exact (List.getElem?_eq_some_iff.1 q2).1) i hij
  simpa only [List.getD_eq_getElem?_getD, q1, q2, q3, q4, Option.getD_some] using this

/-- **C151, violated.** The mean squared displacements of five intervals are 3/5, 2, 25/6, 15/2, 10 at 6, 12, 18, 24, 30; `sub_sample_dt = 2` keeps the first, third and fifth, but takes the numbers of observations of the first
three.  Fits with the random walk model: without an intercept the gradient of highest likelihood is 1/10 for all intervals, and would be 1/10 for the three with their own numbers of observations (the first value divided by its
time, C134), but is 1046/7815, a third more.  With an intercept it would be 1493/4680, but is 757/2280. -/
theorem C151_violated : ∃ Z Z' : Analyzer ℚ, exFiveRun [1, 1, 1, 1] [1, 0, 0, 1] 1 = .ok (Z, ()) ∧ exFiveRun [1, 1, 1, 1] [1, 0, 0, 1] 2 = .ok (Z', ()) ∧
    (∀ i < 3, Z'.diff.dt[i]? = Z.diff.dt[2 * i]? ∧ Z'.diff.n[i]? = Z.diff.n[2 * i]?) ∧
    (∀ g, ModelRay Z.diff 0 g ↔ g = 1 / 10) ∧ (∀ g, ModelRay { Z'.diff with nO := stride 2 Z.diff.nO } 0 g ↔ g = 1 / 10) ∧ (∀ g, ModelRay Z'.diff 0 g ↔ g = 1046 / 7815) ∧
    (∀ g c, ModelFit { Z'.diff with nO := stride 2 Z.diff.nO } 0 g c ↔ g = 1493 / 4680 ∧ c = -205 / 156) ∧ (∀ g c, ModelFit Z'.diff 0 g c ↔ g = 757 / 2280 ∧ c = -529 / 380) := by
  obtain ⟨Z, e, n, o, t, -⟩ := exFive_values (x := exFiveRun [1, 1, 1, 1] [1, 0, 0, 1] 1) (y := [3 / 5, 2, 25 / 6, 15 / 2, 10]) (n := [10, 5, 10 / 3, 5 / 2, 2]) (t := [6, 12, 18, 24, 30]) (by decide +kernel)
  obtain ⟨Z', e', n', o', t', -⟩ := exFive_values (x := exFiveRun [1, 1, 1, 1] [1, 0, 0, 1] 2) (y := [3 / 5, 25 / 6, 10]) (n := [10, 5, 10 / 3]) (t := [6, 18, 30]) (by decide +kernel)
  have ho : stride 2 Z.diff.nO = [10, 10 / 3, 2] := by rw [o]; decide +kernel
  refine ⟨Z, Z', e, e', by rw [n, n', t, t']; decide +kernel, ?_, ?_, ?_, ?_, ?_⟩
  · obtain ⟨w, pd, l1, l2, hp⟩ := exFive_weights (b := Z.diff) (m := 5) (v := [some (18/5), some (144/5), some (486/5), some (1152/5), some (450)])
      (A := !![18/5, 36/5, 54/5, 72/5, 18; 36/5, 144/5, 216/5, 288/5, 72; 54/5, 216/5, 486/5, 648/5, 162; 72/5, 288/5, 648/5, 1152/5, 288; 18, 72, 162, 288, 450])
      (P := !![5/9, -5/36, 0, 0, 0; -5/36, 5/36, -5/108, 0, 0; 0, -5/108, 5/81, -5/216, 0; 0, 0, -5/216, 5/144, -1/72; 0, 0, 0, -1/72, 1/90])
      n o t rfl (by decide +kernel) (by decide +kernel) (by decide +kernel) ⟨rfl, rfl⟩ (by decide +kernel) (by decide +kernel) (by decide +kernel)
    obtain ⟨s1, s2⟩ := solved_ray l1 l2 hp (by rw [n]; rfl) w pd ⟨0, by rw [t]; decide +kernel⟩ (1 / 10) (by norm_num) (by rw [n, t]; unfold NormalEquation; decide +kernel)
    exact fun g => ⟨s2 g, fun h => h ▸ s1⟩
  · obtain ⟨w, pd, l1, l2, hp⟩ := exFive_weights (b := { Z'.diff with nO := stride 2 Z.diff.nO }) (m := 3) (v := [some (18/5), some (486/5), some (450)])
      (A := !![18/5, 54/5, 18; 54/5, 486/5, 162; 18, 162, 450])
      (P := !![5/12, -5/108, 0; -5/108, 5/162, -1/108; 0, -1/108, 1/180])
      n' ho t' rfl (by decide +kernel) (by decide +kernel) (by decide +kernel) ⟨rfl, rfl⟩ (by decide +kernel) (by decide +kernel) (by decide +kernel)
    obtain ⟨s1, s2⟩ := solved_ray l1 l2 hp (by rw [show ({ Z'.diff with nO := stride 2 Z.diff.nO } : Boot ℚ).n = _ from n']; rfl) w pd ⟨0, by rw [show ({ Z'.diff with nO := stride 2 Z.diff.nO } : Boot ℚ).dt = _ from t']; decide +kernel⟩
      (1 / 10) (by norm_num) (by rw [show ({ Z'.diff with nO := stride 2 Z.diff.nO } : Boot ℚ).n = _ from n', show ({ Z'.diff with nO := stride 2 Z.diff.nO } : Boot ℚ).dt = _ from t']; unfold NormalEquation; decide +kernel)
    exact fun g => ⟨s2 g, fun h => h ▸ s1⟩
  · obtain ⟨w, pd, l1, l2, hp⟩ := exFive_weights (b := Z'.diff) (m := 3) (v := [some (18/5), some (324/5), some (270)])
      (A := !![18/5, 36/5, 54/5; 36/5, 324/5, 486/5; 54/5, 486/5, 270])
      (P := !![5/14, -5/126, 0; -5/126, 55/1449, -5/414; 0, -5/414, 5/621])
      n' o' t' rfl (by decide +kernel) (by decide +kernel) (by decide +kernel) ⟨rfl, rfl⟩ (by decide +kernel) (by decide +kernel) (by decide +kernel)
    obtain ⟨s1, s2⟩ := solved_ray l1 l2 hp (by rw [n']; rfl) w pd ⟨0, by rw [t']; decide +kernel⟩ (1046 / 7815) (by norm_num) (by rw [n', t']; unfold NormalEquation; decide +kernel)
    exact fun g => ⟨s2 g, fun h => h ▸ s1⟩
  · obtain ⟨w, pd, l1, l2, hp⟩ := exFive_weights (b := { Z'.diff with nO := stride 2 Z.diff.nO }) (m := 3) (v := [some (18/5), some (486/5), some (450)])
      (A := !![18/5, 54/5, 18; 54/5, 486/5, 162; 18, 162, 450])
      (P := !![5/12, -5/108, 0; -5/108, 5/162, -1/108; 0, -1/108, 1/180])
      n' ho t' rfl (by decide +kernel) (by decide +kernel) (by decide +kernel) ⟨rfl, rfl⟩ (by decide +kernel) (by decide +kernel) (by decide +kernel)
    obtain ⟨s1, s2⟩ := solved_fit l1 l2 hp (by rw [show ({ Z'.diff with nO := stride 2 Z.diff.nO } : Boot ℚ).n = _ from n']; rfl) w pd ⟨0, 1, by rw [show ({ Z'.diff with nO := stride 2 Z.diff.nO } : Boot ℚ).dt = _ from t']; decide +kernel⟩
      (1493 / 4680) (-205 / 156) (by norm_num) (by rw [show ({ Z'.diff with nO := stride 2 Z.diff.nO } : Boot ℚ).n = _ from n', show ({ Z'.diff with nO := stride 2 Z.diff.nO } : Boot ℚ).dt = _ from t']; unfold NormalEquations; decide +kernel)
    exact fun g c => ⟨s2 g c, fun h => h.1 ▸ h.2 ▸ s1⟩
  · obtain ⟨w, pd, l1, l2, hp⟩ := exFive_weights (b := Z'.diff) (m := 3) (v := [some (18/5), some (324/5), some (270)])
      (A := !![18/5, 36/5, 54/5; 36/5, 324/5, 486/5; 54/5, 486/5, 270])
      (P := !![5/14, -5/126, 0; -5/126, 55/1449, -5/414; 0, -5/414, 5/621])
      n' o' t' rfl (by decide +kernel) (by decide +kernel) (by decide +kernel) ⟨rfl, rfl⟩ (by decide +kernel) (by decide +kernel) (by decide +kernel)
    obtain ⟨s1, s2⟩ := solved_fit l1 l2 hp (by rw [n']; rfl) w pd ⟨0, 1, by rw [t']; decide +kernel⟩ (757 / 2280) (-529 / 380) (by norm_num) (by rw [n', t']; unfold NormalEquations; decide +kernel)
    exact fun g c => ⟨s2 g c, fun h => h.1 ▸ h.2 ▸ s1⟩

/-- `C151_definite_partial` and `C151_line_partial`: the kept values 1/2, 3/2, 5/2 of this trajectory lie on a line through the origin (the others, 7/8 and 7/4, do not), which is the only best line with and without an intercept, and
there are such fits. -/
example : ∃ Z : Analyzer ℚ, exFiveRun [1, 1, -1, 1] [0, 1, 0, 0] 2 = .ok (Z, ()) ∧ Z.diff.n = [1 / 2, 3 / 2, 5 / 2] ∧ (∀ g c, ModelFit Z.diff 0 g c ↔ g = 1 / 12 ∧ c = 0) ∧ ∀ g, ModelRay Z.diff 0 g ↔ g = 1 / 12 := by
  obtain ⟨Z, e, n, o, t, T⟩ := exFive_values (x := exFiveRun [1, 1, -1, 1] [0, 1, 0, 0] 2) (y := [1 / 2, 3 / 2, 5 / 2]) (n := [10, 5, 10 / 3]) (t := [6, 18, 30]) (by decide +kernel)
  obtain ⟨q1, q2⟩ := C151_line_partial exNum rfl exParams rfl (by decide +kernel) exSelect (exFive [1, 1, -1, 1] [0, 1, 0, 0]) ([], []) _ 1 (.inl ⟨rfl, rfl⟩) id (exOracle ℚ) { exUnc with sub := 2 } 2 (by decide) rfl (.scalar 1) () () Z (.inl e)
    6 6 (by norm_num) (by norm_num) (fun i t h => by
      rw [T] at h
      have hi : i < 5 := (List.getElem?_eq_some_iff.1 h).1
      interval_cases i <;> (obtain rfl := Option.some.inj h; norm_num)) 0 (1 / 12) 0 (by norm_num) (fun i _ hi => by
      rw [n] at hi
      have hi : i < 3 := hi
      rw [n, t]
      revert i
      decide +kernel)
  obtain ⟨w, pd, l1, l2, hp⟩ := exFive_weights (b := Z.diff) (m := 3) (v := [some (18/5), some (324/5), some (270)])
    (A := !![18/5, 36/5, 54/5; 36/5, 324/5, 486/5; 54/5, 486/5, 270])
    (P := !![5/14, -5/126, 0; -5/126, 55/1449, -5/414; 0, -5/414, 5/621])
    n o t rfl (by decide +kernel) (by decide +kernel) (by decide +kernel) ⟨rfl, rfl⟩ (by decide +kernel) (by decide +kernel) (by decide +kernel)
  obtain ⟨s1, -⟩ := solved_fit l1 l2 hp (by rw [n]; rfl) w pd ⟨0, 1, by rw [t]; decide +kernel⟩ (1 / 12) 0 (by norm_num) (by rw [n, t]; unfold NormalEquations; decide +kernel)
  obtain ⟨s2, -⟩ := solved_ray l1 l2 hp (by rw [n]; rfl) w pd ⟨0, by rw [t]; decide +kernel⟩ (1 / 12) (by norm_num) (by rw [n, t]; unfold NormalEquation; decide +kernel)
  exact ⟨Z, e, n, fun g c => ⟨q1 (by rw [n]; decide) g c, fun h => h.1 ▸ h.2 ▸ s1⟩, fun g => ⟨q2 (by rw [n]; decide) rfl g, fun h => h ▸ s2⟩⟩

end Kinisi
