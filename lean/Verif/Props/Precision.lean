import Verif.Spec.Precision
import Verif.Props.Efficiency
import Verif.Props.Increments

/-!
# C135: more intervals never make the gradient less precise
-/

set_option linter.unusedSectionVars false
set_option linter.unusedVariables false

namespace Kinisi
open Spec
variable {K : Type} [Field K] [LinearOrder K] [IsStrictOrderedRing K] [FloorRing K]

/-- Weights for the selected intervals, as weights for all of them. -/
def spreadOut {m m' : ℕ} (f : Fin m' → Fin m) (w : Fin m' → K) (i : Fin m) : K := ∑ a, if f a = i then w a else 0

theorem sum_spreadOut {m m' : ℕ} (f : Fin m' → Fin m) (w : Fin m' → K) (y : Fin m → K) : ∑ i, spreadOut f w i * y i = ∑ a, w a * y (f a) := by
  unfold spreadOut
  simp only [Finset.sum_mul]
  rw [Finset.sum_comm]
  refine Finset.sum_congr rfl fun a _ => ?_
  simp

theorem estVariance_spreadOut {m m' : ℕ} (f : Fin m' → Fin m) (w : Fin m' → K) (A : Matrix (Fin m) (Fin m) K) (A' : Matrix (Fin m') (Fin m') K)
    (h : ∀ a b, A' a b = A (f a) (f b)) : estVariance A (spreadOut f w) = estVariance A' w := by
  unfold estVariance
  have h1 : ∀ i, ∑ j, spreadOut f w i * A i j * spreadOut f w j = spreadOut f w i * ∑ b, w b * A i (f b) := by
    intro i
    rw [← sum_spreadOut f w fun j => A i j, Finset.mul_sum]
    exact Finset.sum_congr rfl fun j _ => by ring
  rw [Finset.sum_congr rfl fun i _ => h1 i, sum_spreadOut f w fun i => ∑ b, w b * A i (f b)]
  refine Finset.sum_congr rfl fun a _ => ?_
  rw [Finset.mul_sum]
  exact Finset.sum_congr rfl fun b _ => by rw [h]; ring

theorem inverse_sym {m : ℕ} {A P : Matrix (Fin m) (Fin m) K} (hA : ∀ i j, A i j = A j i) (h : A * P = 1) : ∀ i j, P i j = P j i := by
  have hT : A.transpose = A := by ext i j; exact hA j i
  have h1 : P.transpose * A = 1 := by rw [← hT, ← Matrix.transpose_mul, h, Matrix.transpose_one]
  have h2 : P.transpose = P := by
    calc P.transpose = P.transpose * (A * P) := by rw [h, mul_one]
      _ = P := by rw [← mul_assoc, h1, one_mul]
  intro i j
  conv_lhs => rw [← h2]
  rfl

/-- The matrix for selected intervals is the part of the full one. -/
theorem populate_select {m m' : ℕ} (f : Fin m' → Fin m) (hf : StrictMono f) (v n : Fin m → K) (hn : ∀ i, 0 < n i) (extra extra' : List K)
    (A : Matrix (Fin m) (Fin m) K) (A' : Matrix (Fin m') (Fin m') K) (hA : populateCovariance (List.ofFn fun i => some (v i)) (List.ofFn n ++ extra) = .ok (rowsOf A))
    (hA' : populateCovariance (List.ofFn fun i => some (v (f i))) (List.ofFn (fun i => n (f i)) ++ extra') = .ok (rowsOf A')) :
    (∀ i j, A i j = A j i) ∧ (∀ i j, A' i j = A' j i) ∧ ∀ a b, A' a b = A (f a) (f b) := by
  obtain ⟨B, h1, h2, -, h4⟩ := C40_covariance v n extra fun i => (hn i).ne'
  rw [hA] at h1
  obtain rfl := rowsOf_injective (Except.ok.inj h1)
  obtain ⟨B, k1, k2, -, k4⟩ := C40_covariance (fun i => v (f i)) (fun i => n (f i)) extra' fun i => (hn (f i)).ne'
  rw [hA'] at k1
  obtain rfl := rowsOf_injective (Except.ok.inj k1)
  refine ⟨h2, k2, fun a b => ?_⟩
  rcases le_total a b with h | h
  · rw [k4 a b h, h4 _ _ (hf.monotone h)]
  · rw [k2, h2, k4 b a h, h4 _ _ (hf.monotone h)]

/-- **C135, likelihood.** Of two fits, one to all intervals and one to some of them in the same order (a later start, fewer intervals), the second never determines the gradient more sharply: whatever
the data, the log-likelihood falls from its maximum with a variance that is at least that of the fit to all intervals.  With or without intercept. -/
theorem C135_spread {m m' : ℕ} (f : Fin m' → Fin m) (hf : StrictMono f) (v n : Fin m → K) (hn : ∀ i, 0 < n i) (hw0 : ∀ i, 0 < v i)
    (hw : ∀ i j, i < j → v i * n i ^ 2 < v j * n j ^ 2) (extra extra' : List K) (A P : Matrix (Fin m) (Fin m) K) (A' P' : Matrix (Fin m') (Fin m') K)
    (hA : populateCovariance (List.ofFn fun i => some (v i)) (List.ofFn n ++ extra) = .ok (rowsOf A))
    (hA' : populateCovariance (List.ofFn fun i => some (v (f i))) (List.ofFn (fun i => n (f i)) ++ extra') = .ok (rowsOf A')) (hP : A * P = 1) (hP' : A' * P' = 1)
    (t : Fin m → K) (ld ld' : K) :
    ((∃ i j, t (f i) ≠ t (f j)) → ∃ s s' : K, 0 < s ∧ s ≤ s' ∧ (∀ y, SpreadLine (logLikelihood ld P t y) s) ∧
      ∀ y, SpreadLine (logLikelihood ld' P' (fun i => t (f i)) y) s') ∧
    ((∃ i, t (f i) ≠ 0) → ∃ s s' : K, 0 < s ∧ s ≤ s' ∧ (∀ y, SpreadRay (logLikelihood ld P t y) s) ∧
      ∀ y, SpreadRay (logLikelihood ld' P' (fun i => t (f i)) y) s') := by
  obtain ⟨s1, s2, s3⟩ := populate_select f hf v n hn extra extra' A A' hA hA'
  have pd1 : PD A := ((C41_psd_iff v n extra hn A hA).2).2 ⟨fun i => by have := hn i; have := hw0 i; positivity, hw⟩
  have pd2 : PD A' := ((C41_psd_iff (fun i => v (f i)) (fun i => n (f i)) extra' (fun i => hn _) A' hA').2).2
    ⟨fun i => by have := hn (f i); have := hw0 (f i); positivity, fun i j h => hw _ _ (hf h)⟩
  have q1 := inverse_sym s1 hP
  have q2 := inverse_sym s2 hP'
  have r1 : PD P := pd_inverse q1 (mul_eq_one_comm.mp hP) pd1
  have r2 : PD P' := pd_inverse q2 (mul_eq_one_comm.mp hP') pd2
  refine ⟨fun ⟨i, j, hij⟩ => ?_, fun ⟨i, hi⟩ => ?_⟩
  · obtain ⟨w, u1, u2, u3, u4⟩ := C89_efficient ld A P s1 q1 hP r1 t ⟨_, _, hij⟩
    obtain ⟨w', x1, x2, x3, x4⟩ := C89_efficient ld' A' P' s2 q2 hP' r2 (fun i => t (f i)) ⟨i, j, hij⟩
    refine ⟨_, _, u2, ?_, fun y g c best hg hb g' hg' => (u4 y g c best hg hb).2 g' hg', fun y g c best hg hb g' hg' => (x4 y g c best hg hb).2 g' hg'⟩
    rw [← estVariance_spreadOut f w' A A' s3]
    refine (u3 _ fun g c => ?_).1
    have := x1 g c
    unfold estimate at this ⊢
    rw [sum_spreadOut]
    exact this
  · obtain ⟨w, u1, u2, u3, u4⟩ := C89_efficient_no_intercept ld A P s1 q1 hP r1 t ⟨_, hi⟩
    obtain ⟨w', x1, x2, x3, x4⟩ := C89_efficient_no_intercept ld' A' P' s2 q2 hP' r2 (fun i => t (f i)) ⟨i, hi⟩
    refine ⟨_, _, u2, ?_, fun y g best hg hb g' hg' => (u4 y g best hg hb).2 g' hg', fun y g best hg hb g' hg' => (x4 y g best hg hb).2 g' hg'⟩
    rw [← estVariance_spreadOut f w' A A' s3]
    refine (u3 _ fun g => ?_).1
    have := x1 g
    unfold estimate at this ⊢
    rw [sum_spreadOut]
    exact this

/-- **C135, without intercept.** If the numbers of observations are inversely proportional to the times, the variance is that of the first fitted value over the square of its time, and it is strictly larger for
a later start. -/
theorem C135_ray {m : ℕ} (v n t : ℕ → K) (hn : ∀ i < m + 1, 0 < n i) (hv : 0 < v 0) (extra : List K) (A P : Matrix (Fin (m + 1)) (Fin (m + 1)) K)
    (hA : populateCovariance (List.ofFn fun i : Fin (m + 1) => some (v i)) ((List.ofFn fun i : Fin (m + 1) => n i) ++ extra) = .ok (rowsOf A)) (hP : A * P = 1)
    (ld κ : K) (hκ : ∀ i < m + 1, n i * t i = κ) (ht : ∀ i < m + 1, 0 < t i) :
    (∀ y : ℕ → K, 0 ≤ y 0 → SpreadRay (logLikelihood ld P (fun i => t i) (fun i => y i)) (v 0 / t 0 ^ 2)) ∧
    ((∀ k < m, v k * n k ^ 2 < v (k + 1) * n (k + 1) ^ 2) → ∀ i j, i < j → j < m + 1 → v i / t i ^ 2 < v j / t j ^ 2) := by
  refine ⟨fun y hy g best hg hb g' hg' => ?_, fun hw i j hij hj => ?_⟩
  · obtain ⟨⟨R, hR⟩, hbest⟩ := C134_first_interval v n t y hn extra A P hA hP ld κ hκ
    have h0 := ht 0 (by omega)
    have hgy := (hbest h0 hy hv g).1 ⟨best, hb⟩
    have hb1 := hb.1
    rw [hR] at hb1 ⊢
    unfold onePoint at hb1 ⊢
    rw [if_neg (by simpa using hg.le)] at hb1
    rw [if_neg (by simpa using hg')]
    simp only [List.getD_cons_zero, Option.map_some, Option.some.injEq] at hb1 ⊢
    have hy' : y 0 = g * t 0 := by rw [hgy]; field_simp
    rw [hy'] at hb1 ⊢
    rw [← hb1]
    field_simp
    ring
  · have key : ∀ d i, i + d + 1 < m + 1 → v i * n i ^ 2 < v (i + d + 1) * n (i + d + 1) ^ 2 := by
      intro d
      induction d with
      | zero => intro i hi; exact hw i (by omega)
      | succ d ih => intro i hi; exact (ih i (by omega)).trans (hw _ (by omega))
    have h := key (j - i - 1) i (by omega)
    rw [show i + (j - i - 1) + 1 = j by omega] at h
    have e : ∀ l < m + 1, v l / t l ^ 2 = v l * n l ^ 2 / κ ^ 2 := by
      intro l hl
      have h1 := (hn l hl).ne'
      have h2 := (ht l hl).ne'
      rw [← hκ l hl]
      field_simp
    have hκ0 : 0 < κ ^ 2 := by
      rw [← hκ 0 (by omega)]
      have h1 := hn 0 (by omega)
      have h2 := ht 0 (by omega)
      positivity
    rw [e i (by omega), e j hj]
    exact div_lt_div_of_pos_right h hκ0

theorem measured_variances {L : GlsLib K} {a : GlsArgs K} {b b' : Boot K} (h : bootstrapGLS L a b = (b', .ok ())) (hm : a.model = false) {r : ℕ}
    (hr : diffRegime b.dt a.startDt = .ok r) {v : List (Option K)} (hv : b'.modelV = some v) : v = b.v.drop r := by
  unfold bootstrapGLS at h
  rw [show (markFit a b).dt = b.dt from rfl, hr] at h
  simp only [fitFrom] at h
  unfold generateCovariance chooseVariances at h
  rw [if_neg (by rw [hm]; decide)] at h
  simp only at h
  split at h
  · cases (Prod.mk.inj h).2
  · rename_i b2 m cov hg
    split at hg
    · cases (Prod.mk.inj hg).2
    · split at hg
      · cases (Prod.mk.inj hg).2
      · have e2 := (Prod.mk.inj hg).1
        split at h
        · cases (Prod.mk.inj h).2
        · obtain ⟨-, ⟨gr, ic, e3⟩, -⟩ := storeChain_fit h
          rw [e3, ← e2] at hv
          exact (Option.some.inj hv).symm

/-- **C135, start.** Two fits of the same measured data (not the model variances), the second with a later start.  If the conditioning left the matrices alone, each fit used the inverse of its own matrix as
weights, and with these weights the second fit never determines the gradient more sharply than the first. -/
theorem C135_start {L L' : GlsLib K} {a a' : GlsArgs K} {b b1 b2 : Boot K} (h : bootstrapGLS L a b = (b1, .ok ())) (h' : bootstrapGLS L' a' b = (b2, .ok ()))
    (hm : a.model = false) (hm' : a'.model = false) (hs : a.startDt ≤ a'.startDt) (hcov : b1.covariance = b1.npdCovariance) (hcov' : b2.covariance = b2.npdCovariance)
    (vs : List K) (hv : b.v = vs.map some) (hpos : ∀ x ∈ vs, 0 < x) (hn : ∀ N ∈ b.nO, 0 < N) (hsort : b.dt.Pairwise (· < ·)) (hlen : b.dt.length = vs.length)
    (hw : ∀ (i j : ℕ) (x y N M : K), i < j → vs[i]? = some x → vs[j]? = some y → b.nO[i]? = some N → b.nO[j]? = some M → x * N ^ 2 < y * M ^ 2)
    (h2 : 2 ≤ (b.dt.filter fun t => decide (a'.startDt ≤ t)).length) :
    ∃ (r r' m m' : ℕ) (A : Matrix (Fin m) (Fin m) K) (A' : Matrix (Fin m') (Fin m') K), diffRegime b.dt a.startDt = .ok r ∧ diffRegime b.dt a'.startDt = .ok r' ∧
      b1.covariance = some (rowsOf A) ∧ b2.covariance = some (rowsOf A') ∧ m = b.dt.length - r ∧ m' = b.dt.length - r' ∧
      ∀ P P' ld ld', A * P = 1 → A' * P' = 1 → ∃ s s' : K, 0 < s ∧ s ≤ s' ∧
        (∀ y, SpreadLine (logLikelihood ld P (fun i => (b.dt.drop r).getD i 0) y) s) ∧
        ∀ y, SpreadLine (logLikelihood ld' P' (fun i => (b.dt.drop r').getD i 0) y) s' := by
  obtain ⟨r, m, A, c1, v, M, p1, p2, p3, p4, p5, p6, p7, p8⟩ := bootstrapGLS_parts h
  obtain ⟨r', m', A', c1', v', M', p1', p2', p3', p4', p5', p6', p7', p8'⟩ := bootstrapGLS_parts h'
  rw [p5, p6] at hcov
  rw [p5', p6'] at hcov'
  rw [← Option.some.inj hcov] at p4
  rw [← Option.some.inj hcov'] at p4'
  have hvv : v = b.v.drop r := measured_variances h hm p1 p2
  have hvv' : v' = b.v.drop r' := measured_variances h' hm' p1' p2'
  subst hvv hvv'
  obtain ⟨q1, q2, q3⟩ := diffRegime_ok_iff.1 p1
  obtain ⟨q1', q2', q3'⟩ := diffRegime_ok_iff.1 p1'
  have hrr : r ≤ r' := by
    by_contra hc
    have := q3 r' (by omega)
    exact absurd (hs.trans q2') (not_le.2 this)
  rw [hv, ← List.map_drop, List.length_map, List.length_drop] at p3 p3'
  have hcount : 2 ≤ b.dt.length - r' := by
    have h1 : b.dt = b.dt.take r' ++ b.dt.drop r' := (List.take_append_drop r' b.dt).symm
    rw [h1, List.filter_append, List.length_append] at h2
    have h3 : (b.dt.take r').filter (fun t => decide (a'.startDt ≤ t)) = [] := by
      rw [List.filter_eq_nil_iff]
      intro x hx
      obtain ⟨i, hi, rfl⟩ := List.getElem_of_mem hx
      rw [List.length_take] at hi
      rw [List.getElem_take]
      simpa using q3' i (by omega)
    rw [h3, List.length_nil, zero_add] at h2
    exact h2.trans ((List.length_filter_le _ _).trans (by rw [List.length_drop]))
  refine ⟨r, r', m, m', A, A', p1, p1', p6, p6', by omega, by omega, fun P P' ld ld' hP hP' => ?_⟩
  have hnl : m ≤ (b.nO.drop r).length := by
    by_contra hc
    rw [C40_short _ _ (by rw [hv, ← List.map_drop]; simp only [List.length_map, List.length_drop] at hc ⊢; omega)] at p4
    cases p4
  rw [List.length_drop] at hnl
  let f : Fin m' → Fin m := fun i => ⟨i.val + (r' - r), by have := i.2; omega⟩
  have hf : StrictMono f := fun i j hij => by
    show i.val + (r' - r) < j.val + (r' - r)
    have : i.val < j.val := hij
    omega
  let vf : Fin m → K := fun i => vs.getD (r + i) 0
  let nf : Fin m → K := fun i => b.nO.getD (r + i) 0
  have gv : ∀ i : Fin m, vs[r + i.val]? = some (vf i) := fun i => by
    simp only [vf, List.getD_eq_getElem?_getD]
    rw [List.getElem?_eq_getElem (by have := i.2; omega)]; rfl
  have gn : ∀ i : Fin m, b.nO[r + i.val]? = some (nf i) := fun i => by
    simp only [nf, List.getD_eq_getElem?_getD]
    rw [List.getElem?_eq_getElem (by have := i.2; omega)]; rfl
  have hval : ∀ i : Fin m', r + (f i).val = r' + i.val := fun i => by show r + (i.val + (r' - r)) = _; omega
  have e1 : b.v.drop r = List.ofFn fun i => some (vf i) := by
    rw [hv, ← List.map_drop]
    apply List.ext_getElem?
    intro i
    rw [List.getElem?_map, List.getElem?_ofFn, List.getElem?_drop]
    by_cases hi : i < m
    · rw [dif_pos hi, gv ⟨i, hi⟩]; rfl
    · rw [dif_neg hi, List.getElem?_eq_none (by omega)]; rfl
  have e1' : b.v.drop r' = List.ofFn fun i => some (vf (f i)) := by
    rw [hv, ← List.map_drop]
    apply List.ext_getElem?
    intro i
    rw [List.getElem?_map, List.getElem?_ofFn, List.getElem?_drop]
    by_cases hi : i < m'
    · rw [dif_pos hi, ← gv (f ⟨i, hi⟩), hval]
      have : (vs[r' + i]?).isSome := by rw [List.getElem?_eq_getElem (by omega)]; rfl
      obtain ⟨x, hx⟩ := Option.isSome_iff_exists.1 this
      rw [hx]; rfl
    · rw [dif_neg hi, List.getElem?_eq_none (by omega)]; rfl
  have e2 : b.nO.drop r = List.ofFn nf ++ (b.nO.drop r).drop m := by
    conv_lhs => rw [← List.take_append_drop m (b.nO.drop r)]
    congr 1
    apply List.ext_getElem?
    intro i
    rw [List.getElem?_take, List.getElem?_ofFn]
    by_cases hi : i < m
    · rw [if_pos hi, dif_pos hi, List.getElem?_drop, gn ⟨i, hi⟩]
    · rw [if_neg hi, dif_neg hi]
  have e2' : b.nO.drop r' = List.ofFn (fun i => nf (f i)) ++ (b.nO.drop r').drop m' := by
    conv_lhs => rw [← List.take_append_drop m' (b.nO.drop r')]
    congr 1
    apply List.ext_getElem?
    intro i
    rw [List.getElem?_take, List.getElem?_ofFn]
    by_cases hi : i < m'
    · rw [if_pos hi, dif_pos hi, List.getElem?_drop, ← gn (f ⟨i, hi⟩), hval]
    · rw [if_neg hi, dif_neg hi]
  rw [e1, e2] at p4
  rw [e1', e2'] at p4'
  have hft : (fun i : Fin m' => (b.dt.drop r').getD i 0) = fun i => (fun i : Fin m => (b.dt.drop r).getD i 0) (f i) := by
    funext i
    simp only [List.getD_eq_getElem?_getD, List.getElem?_drop, hval]
  rw [hft]
  refine (C135_spread f hf vf nf (fun i => hn _ (List.mem_of_getElem? (gn i))) (fun i => hpos _ (List.mem_of_getElem? (gv i)))
    (fun i j hij => hw _ _ _ _ _ _ (by have : i.val < j.val := hij; omega) (gv i) (gv j) (gn i) (gn j)) _ _ A P A' P' p4 p4' hP hP' _ ld ld').1 ?_
  refine ⟨⟨0, by omega⟩, ⟨1, by omega⟩, ?_⟩
  simp only [List.getD_eq_getElem?_getD, List.getElem?_drop, hval]
  rw [List.getElem?_eq_getElem (by omega), List.getElem?_eq_getElem (by omega)]
  exact (List.pairwise_iff_getElem.1 hsort _ _ (by omega) (by omega) (by omega)).ne

/-! ## Examples -/

/-- `C135_spread`: the intervals 1, 2, 3 of `exIncr_matrix`, and the last two of them. -/
example (ld ld' : ℚ) : ∃ s s' : ℚ, 0 < s ∧ s ≤ s' ∧
    (∀ y, SpreadLine (logLikelihood ld !![5, -2, 0; -2, 20 / 11, -6 / 11; 0, -6 / 11, 4 / 11] (fun i => exIncr [1, 2, 3] i) y) s) ∧
    ∀ y, SpreadLine (logLikelihood ld' !![56 / 55, -6 / 11; -6 / 11, 4 / 11] (fun i => exIncr [1, 2, 3] (Fin.succ i)) y) s' := by
  obtain ⟨h1, h2, h3, -⟩ := exIncr_matrix
  exact (C135_spread Fin.succ (Fin.strictMono_succ) (fun i : Fin 3 => exIncr [1, 5, 14] i) (fun i => exIncr [6, 3, 2] i) (by decide +kernel) (by decide +kernel) (by decide +kernel) [] []
    _ _ !![5, 15 / 2; 15 / 2, 14] _ h1 (ok_of_toOption (by decide +kernel)) h2 (by decide +kernel) (fun i => exIncr [1, 2, 3] i) ld ld').1 ⟨0, 1, by decide +kernel⟩

/-- `C135_ray`: the variances of the gradient are 1, 5 / 4 and 14 / 9 for starts at 1, 2, 3. -/
example (ld : ℚ) : SpreadRay (logLikelihood ld !![5, -2, 0; -2, 20 / 11, -6 / 11; 0, -6 / 11, 4 / 11] (fun i => exIncr [1, 2, 3] i) (fun i => exIncr [2, 3, 7] i)) 1 ∧ (1 : ℚ) < 5 / 4 := by
  obtain ⟨h1, h2, h3, h4⟩ := exIncr_matrix
  obtain ⟨k1, k2⟩ := C135_ray (exIncr [1, 5, 14]) (exIncr [6, 3, 2]) (exIncr [1, 2, 3]) h3 (by decide +kernel) [] _ _ h1 h2 ld 6 h4 (by decide +kernel)
  have e := k2 (by decide +kernel) 0 1 (by decide) (by decide)
  have e1 : exIncr [1, 5, 14] 0 / exIncr [1, 2, 3] 0 ^ 2 = 1 := by decide +kernel
  have e2 : exIncr [1, 5, 14] 1 / exIncr [1, 2, 3] 1 ^ 2 = 5 / 4 := by decide +kernel
  have k := k1 (exIncr [2, 3, 7]) (by decide +kernel)
  rw [e1] at k e
  rw [e2] at e
  exact ⟨k, e⟩

/-- Routines for two fits of `exStartBoot`, with a factorisation of each matrix. -/
def exStartLib : GlsLib ℚ := { exLib with
  eig := fun m A => match m, A with
    | 1, _ => .ok (fun i => [5, 11 / 4].getD i.val 0, !![1, 0; 3 / 2, 1])
    | 2, _ => .ok (fun i => [1, 1, 11 / 4].getD i.val 0, !![1, 0, 0; 2, 1, 0; 3, 3 / 2, 1])
    | _, _ => .error .linAlgError }

def exStartBoot : Boot ℚ := { exBoot with n := [2, 3, 7], v := [some 1, some 5, some 14] }

/-- `C135_start`: fits from 1 and from 2 on. -/
example : ∃ (r r' m m' : ℕ) (A : Matrix (Fin m) (Fin m) ℚ) (A' : Matrix (Fin m') (Fin m') ℚ), diffRegime exStartBoot.dt 1 = .ok r ∧ diffRegime exStartBoot.dt 2 = .ok r' ∧
      (bootstrapGLS exStartLib (exArgs 1 true) exStartBoot).1.covariance = some (rowsOf A) ∧ (bootstrapGLS exStartLib (exArgs 2 true) exStartBoot).1.covariance = some (rowsOf A') ∧
      m = 3 - r ∧ m' = 3 - r' ∧
      ∀ P P' ld ld', A * P = 1 → A' * P' = 1 → ∃ s s' : ℚ, 0 < s ∧ s ≤ s' ∧
        (∀ y, SpreadLine (logLikelihood ld P (fun i => (exStartBoot.dt.drop r).getD i 0) y) s) ∧
        ∀ y, SpreadLine (logLikelihood ld' P' (fun i => (exStartBoot.dt.drop r').getD i 0) y) s' := by
  refine C135_start (K := ℚ) (L := exStartLib) (L' := exStartLib) (a := exArgs 1 true) (a' := exArgs 2 true) (b := exStartBoot) (ok_of_outcome (by decide +kernel)) (ok_of_outcome (by decide +kernel)) rfl rfl (by decide +kernel) (by decide +kernel) (by decide +kernel) [1, 5, 14] rfl
    (by decide +kernel) (by decide +kernel) (by decide +kernel) rfl ?_ (by decide +kernel)
  intro i j x y N M hij h1 h2 h3 h4
  match i, j with
  | 0, 1 => cases h1; cases h2; cases h3; cases h4; decide +kernel
  | 0, 2 => cases h1; cases h2; cases h3; cases h4; decide +kernel
  | 1, 2 => cases h1; cases h2; cases h3; cases h4; decide +kernel
  | 0, 0 => omega
  | 1, 0 => omega
  | 1, 1 => omega
  | _ + 2, 0 => omega
  | _ + 2, 1 => omega
  | _ + 2, 2 => omega
  | _, j + 3 => cases h2

end Kinisi
