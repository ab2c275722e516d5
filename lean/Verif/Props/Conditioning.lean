import Verif.Lemmas.Conditioning
import Verif.Props.ActualFit
import Verif.Props.FitPrecision

/-!
# C152: when conditioning leaves the covariance matrix alone

`generate_covariance_matrix` passes the matrix through `minimum_eigenvalue_method` and `cov_nearest`.  For the random walk model on whole multiples of a time, neither changes anything if the longest interval is below
ten thousand steps.
-/

set_option linter.unusedSectionVars false
set_option linter.unusedVariables false

namespace Kinisi
open Spec
variable {K : Type} [Field K] [LinearOrder K] [IsStrictOrderedRing K] [FloorRing K] {G : Type}

/-- The squared increments of a sequence with one entry. -/
theorem jump_single_sq (i : ℕ) (c : K) (k : ℕ) : jump (fun j => if j = i then c else 0) k ^ 2 = (if k = i then c ^ 2 else 0) + if k = i + 1 then c ^ 2 else 0 := by
  cases k with
  | zero =>
    simp only [jump]
    by_cases h : 0 = i
    · subst h; simp
    · rw [if_neg h, if_neg h, if_neg (by omega)]; ring
  | succ k =>
    simp only [jump]
    by_cases h1 : k + 1 = i
    · rw [if_pos h1, if_neg (by omega), if_pos h1, if_neg (by omega)]; ring
    · by_cases h2 : k = i
      · rw [if_neg h1, if_pos h2, if_neg h1, if_pos (by omega)]; ring
      · rw [if_neg h1, if_neg h2, if_neg h1, if_neg (by omega)]; ring

/-- The diagonal of the inverse of the model matrix, on times at least `u` apart. -/
theorem inverse_diagonal_le {m : ℕ} (n t : ℕ → K) {a κ u : K} (ha : 0 < a) (hκ : 0 < κ) (hu : 0 < u) (hn : ∀ i < m, 0 < n i) (hc : ∀ i < m, n i * t i = κ) (h0 : 0 < m → u ≤ t 0) (hst : ∀ i, i + 1 < m → t i + u ≤ t (i + 1))
    (A P : Matrix (Fin m) (Fin m) K) (hA : populateCovariance (List.ofFn fun i : Fin m => some (a / n i * t i ^ 2)) ((List.ofFn fun i : Fin m => n i) ++ []) = .ok (rowsOf A)) (hAP : A * P = 1) (i : Fin m) :
    P i i ≤ 2 * n i ^ 2 / (a * κ * u) := by
  have hf := inverse_form (fun i => a / n i * t i ^ 2) n hn [] A P hA hAP (fun j => if j = i.val then 1 else 0)
  have e1 : dotProduct (fun j : Fin m => if j.val = i.val then (1 : K) else 0) (P.mulVec fun j : Fin m => if j.val = i.val then (1 : K) else 0) = P i i := by
    simp only [dotProduct, Matrix.mulVec]
    simp [Fin.val_inj]
  rw [e1] at hf
  rw [hf]
  have hw : ∀ k < m, a / n k * t k ^ 2 * n k ^ 2 = a * κ * t k := by
    intro k hk
    have := (hn k hk).ne'
    rw [← hc k hk]
    field_simp
  have hauk : 0 < a * κ * u := by positivity
  have hterm : ∀ k ∈ Finset.range m, jump (fun j => n j * if j = i.val then (1 : K) else 0) k ^ 2 / jump (fun j => a / n j * t j ^ 2 * n j ^ 2) k ≤
      ((if k = i.val then n i ^ 2 else 0) + if k = i.val + 1 then n i ^ 2 else 0) / (a * κ * u) := by
    intro k hk
    have hk := Finset.mem_range.1 hk
    have e2 : jump (fun j => n j * if j = i.val then (1 : K) else 0) k ^ 2 = (if k = i.val then n i ^ 2 else 0) + if k = i.val + 1 then n i ^ 2 else 0 := by
      rw [← jump_single_sq]
      congr 2
      funext j
      by_cases h : j = i.val
      · rw [if_pos h, if_pos h, h, mul_one]
      · rw [if_neg h, if_neg h, mul_zero]
    have e3 : a * κ * u ≤ jump (fun j => a / n j * t j ^ 2 * n j ^ 2) k := by
      cases k with
      | zero =>
        simp only [jump]
        rw [hw 0 hk]
        exact mul_le_mul_of_nonneg_left (h0 hk) (by positivity)
      | succ k =>
        simp only [jump]
        rw [hw _ hk, hw k (by omega), ← mul_sub]
        exact mul_le_mul_of_nonneg_left (by linarith [hst k hk]) (by positivity)
    rw [← e2]
    exact div_le_div_of_nonneg_left (sq_nonneg _) hauk e3
  refine (Finset.sum_le_sum hterm).trans ?_
  rw [← Finset.sum_div]
  refine div_le_div_of_nonneg_right ?_ hauk.le
  rw [Finset.sum_add_distrib, Finset.sum_ite_eq', Finset.sum_ite_eq']
  have := sq_nonneg (n i)
  split_ifs <;> linarith

/-- **C152, matrix.** The covariance matrix of the random walk model, for times that are distinct multiples of a time in increasing order, the largest being `N` times as long, and numbers of observations inversely proportional
to the times: no eigenvalue is more than `N² (N + 1)²` times another, and no eigenvalue of the correlation matrix is below `1 / (N (N + 1))`. -/
theorem C152_matrix {m : ℕ} (l : ℕ → ℕ) (n : ℕ → K) (u a κ : K) (N : ℕ) (hu : 0 < u) (ha : 0 < a) (hκ : 0 < κ) (hl : ∀ i j, i < j → j < m → l i < l j) (hl1 : ∀ i < m, 1 ≤ l i) (hN : ∀ i < m, l i ≤ N)
    (hn : ∀ i < m, n i * (l i * u) = κ) (A : Matrix (Fin m) (Fin m) K)
    (hA : populateCovariance (List.ofFn fun i : Fin m => some (a / n i * (l i * u) ^ 2)) (List.ofFn fun i : Fin m => n i) = .ok (rowsOf A)) :
    (∀ i j, A i j = A j i) ∧ PD A ∧ EigenvaluesWithin ((N : K) ^ 2 * (N + 1) ^ 2) A ∧ ∀ x : Fin m → K, ∑ i, A i i * x i ^ 2 ≤ N * (N + 1) * ∑ i, ∑ j, x i * A i j * x j := by
  have hl0 : ∀ i < m, (0 : K) < l i := fun i hi => by exact_mod_cast hl1 i hi
  have ht : ∀ i < m, 0 < (l i : K) * u := fun i hi => mul_pos (hl0 i hi) hu
  have hn0 : ∀ i < m, 0 < n i := fun i hi => by
    by_contra h
    have := mul_nonpos_of_nonpos_of_nonneg (not_lt.1 h) (ht i hi).le
    rw [hn i hi] at this
    exact absurd hκ (not_lt.2 this)
  have hmono : ∀ i j : Fin m, i < j → (l i : K) * u < l j * u := fun i j h => mul_lt_mul_of_pos_right (by exact_mod_cast hl i j h j.2) hu
  obtain ⟨-, A', f1, f2, -, f4⟩ := model_cov (fun i : Fin m => n i) (fun i : Fin m => (l i : K) * u) a κ (fun i => hn0 i i.2) (fun i => hn i i.2) hκ.le ha.le (fun i j hij => by
    rcases hij.lt_or_eq with h | rfl
    · exact (hmono i j h).le
    · exact le_refl _)
  rw [hA] at f1
  obtain rfl := rowsOf_injective (Except.ok.inj f1)
  have hpd := f4 ha hκ hmono
  obtain ⟨P, hAP⟩ := pd_has_inverse hpd
  obtain ⟨A'', g1, -, -, g4⟩ := C40_covariance (fun i : Fin m => a / n i * (l i * u) ^ 2) (fun i : Fin m => n i) [] fun i => (hn0 i i.2).ne'
  rw [List.append_nil, hA] at g1
  obtain rfl := rowsOf_injective (Except.ok.inj g1)
  have hne : ∀ i : Fin m, n i = κ / (l i * u) := fun i => by rw [eq_div_iff (ht i i.2).ne', hn i i.2]
  have hdiag : ∀ i : Fin m, A i i = a / κ * u ^ 3 * (l i : K) ^ 3 := by
    intro i
    have h1 := (hl0 i i.2).ne'
    have h2 := (hn0 i i.2).ne'
    rw [g4 i i (le_refl _), div_self h2, hne i]
    field_simp
  have hP : ∀ i : Fin m, P i i ≤ κ / a * (2 / u ^ 3) * (1 / (l i : K) ^ 2) := by
    intro i
    have h := inverse_diagonal_le n (fun i => (l i : K) * u) ha hκ hu hn0 hn (fun h => by
        have : (1 : K) ≤ l 0 := by exact_mod_cast hl1 0 h
        nlinarith) (fun k hk => by
        have : (l k : K) + 1 ≤ l (k + 1) := by exact_mod_cast hl k (k + 1) (by omega) hk
        nlinarith) A P (by rw [List.append_nil]; exact hA) hAP i
    refine h.trans (le_of_eq ?_)
    have h1 := (hl0 i i.2).ne'
    rw [hne i]
    field_simp
  have hinj : Function.Injective fun i : Fin m => l i := by
    intro i j hij
    rcases lt_trichotomy i j with h | h | h
    · exact absurd hij (hl i j h j.2).ne
    · exact h
    · exact absurd hij (hl j i h i.2).ne'
  have hNl : ∀ i : Fin m, l i ≤ N := fun i => hN i i.2
  have hpos : ∀ i : Fin m, 0 < A i i := fun i => by
    rw [hdiag]
    have := hl0 i i.2
    positivity
  refine ⟨f2, hpd, eigenvalues_within f2 hpd hAP ?_, fun x => correlations_above f2 hpd hAP hpos ?_ x⟩
  · have t1 : A.trace ≤ a / κ * u ^ 3 * ((N : K) ^ 2 * ((N : K) + 1) ^ 2 / 4) := by
      have := sum_distinct_le (fun i : Fin m => l i) hinj hNl (fun j => (j : K) ^ 3) fun j => by positivity
      have hc := sum_cubes (K := K) N
      rw [Matrix.trace]
      simp only [Matrix.diag_apply, hdiag]
      rw [← Finset.mul_sum]
      exact mul_le_mul_of_nonneg_left (by linarith) (by positivity)
    have t2 : P.trace ≤ κ / a * (2 / u ^ 3) * 2 := by
      have := sum_distinct_le (fun i : Fin m => l i) hinj hNl (fun j => 1 / (j : K) ^ 2) fun j => by positivity
      have hc := sum_inv_squares (K := K) N
      rw [Matrix.trace]
      refine (Finset.sum_le_sum fun i _ => hP i).trans ?_
      rw [← Finset.mul_sum]
      exact mul_le_mul_of_nonneg_left (by linarith) (by positivity)
    have t3 : 0 ≤ P.trace := Finset.sum_nonneg fun i _ => (coord_sq_le f2 hpd hAP 0 i).2.le
    calc A.trace * P.trace ≤ a / κ * u ^ 3 * ((N : K) ^ 2 * ((N : K) + 1) ^ 2 / 4) * (κ / a * (2 / u ^ 3) * 2) := mul_le_mul t1 t2 t3 (by positivity)
      _ = (N : K) ^ 2 * (N + 1) ^ 2 := by field_simp; ring
  · have h1 : ∀ i : Fin m, A i i * P i i ≤ 2 * (l i : K) := by
      intro i
      have h0 := hl0 i i.2
      calc A i i * P i i ≤ A i i * (κ / a * (2 / u ^ 3) * (1 / (l i : K) ^ 2)) := mul_le_mul_of_nonneg_left (hP i) (hpos i).le
        _ = 2 * (l i : K) := by rw [hdiag]; field_simp
    refine (Finset.sum_le_sum fun i _ => h1 i).trans ?_
    rw [← Finset.mul_sum]
    have := sum_distinct_le (fun i : Fin m => l i) hinj hNl (fun j => (j : K)) fun j => by positivity
    have hc := sum_id (K := K) N
    linarith

/-- A matrix that needs no conditioning is returned by `condition`. -/
theorem condition_keeps {L : GlsLib K} (heig : Diagonalises L) (hnear : KeepsCovariance L) {m : ℕ} {A B : Matrix (Fin m) (Fin m) K} {κ q : K} (hs : ∀ i j, A i j = A j i) (hA : PD A)
    (hq : EigenvaluesWithin q A) (hκ : q ≤ κ) (h1 : 1 ≤ κ) (hc : CorrelationsAbove (1 / 10 ^ 15) A) (h : condition L m (rowsOf A) κ = .ok B) : B = A := by
  cases m with
  | zero => exact funext fun i => i.elim0
  | succ m =>
  simp only [condition, finiteMatrix_rowsOf] at h
  cases he : L.eig m A with
  | error e =>
    rw [show minimumEigenvalueMethod (L.eig m) A κ = .error e by unfold minimumEigenvalueMethod; rw [he]] at h
    cases h
  | ok p =>
    obtain ⟨ev, V⟩ := p
    have hE := heig m A ev V hs he
    obtain ⟨B', k1, -, -, k4⟩ := C43_condition_partial (L.eig m) A ev V he hE κ h1
    obtain ⟨p1, p2⟩ := hq ev V hE
    have hB : B' = A := k4 fun k => by
      rw [div_le_iff₀ (by linarith)]
      calc ev 0 ≤ q * ev k := p2 0 k
        _ ≤ κ * ev k := mul_le_mul_of_nonneg_right hκ (p1 k).le
        _ = ev k * κ := by ring
    rw [k1, hB] at h
    exact hnear _ A B hs (fun i => by
      have := hA (Pi.single i 1) (by intro h0; have := congrFun h0 i; simp at this)
      simpa [Pi.single_apply] using this) hc h

/-- The matrix of a successful fit is the conditioned one. -/
theorem bootstrapGLS_condition {L : GlsLib K} {a : GlsArgs K} {b b' : Boot K} (h : bootstrapGLS L a b = (b', .ok ())) :
    ∃ (r m : ℕ) (v : List (Option K)) (M : List (List (Option K))) (B : Matrix (Fin m) (Fin m) K), diffRegime b.dt a.startDt = .ok r ∧ b'.modelV = some v ∧ v.length = m ∧ populateCovariance v (b.nO.drop r) = .ok M ∧
      condition L m M a.condMax = .ok B ∧ b'.npdCovariance = some M ∧ b'.covariance = some (rowsOf B) := by
  unfold bootstrapGLS at h
  rw [show (markFit a b).dt = b.dt from rfl] at h
  cases hr : diffRegime b.dt a.startDt with
  | error e => rw [hr] at h; cases (Prod.mk.inj h).2
  | ok r =>
  rw [hr] at h
  simp only [fitFrom] at h
  cases hg : generateCovariance L a (markFit a b) r with
  | mk b2 o =>
  rw [hg] at h
  cases o with
  | error e => cases (Prod.mk.inj h).2
  | ok mc =>
  obtain ⟨m, cov⟩ := mc
  obtain ⟨v, M, p1, p2, p3, p4⟩ := generateCovariance_parts hg
  have hcond : condition L m M a.condMax = .ok cov := by
    unfold generateCovariance at hg
    cases hc : chooseVariances L a.model (markFit a b) r with
    | mk bc oc =>
    have hno : bc.nO = (markFit a b).nO := by
      obtain ⟨⟨_, _, _, _, _, _, _, e⟩, -⟩ := chooseVariances_pre hc
      rw [e]
    rw [hc] at hg
    cases oc with
    | error e => cases (Prod.mk.inj hg).2
    | ok v' =>
      simp only at hg
      split at hg
      · cases (Prod.mk.inj hg).2
      · rename_i M' hM'
        split at hg
        · cases (Prod.mk.inj hg).2
        · rename_i A hA
          obtain ⟨e1, e2⟩ := Prod.mk.inj hg
          have hM : M' = M := by
            rw [← e1] at p4
            exact Option.some.inj p4
          obtain ⟨hm, hA'⟩ := Sigma.mk.inj (Except.ok.inj e2)
          subst hm
          rw [← hM, ← eq_of_heq hA']
          exact hA
  simp only at h
  cases hs : sampleChain L a (b2.dt.drop r) (b2.n.drop r) m cov with
  | error e => rw [hs] at h; cases (Prod.mk.inj h).2
  | ok chain =>
  rw [hs] at h
  simp only at h
  obtain ⟨e1, ⟨gr, ic, e2⟩, e3⟩ := storeChain_fit h
  refine ⟨r, m, v, M, cov, rfl, ?_, p2, p3, hcond, ?_, ?_⟩
  · rw [e2]; exact p1
  · rw [e2]; exact p4
  · rw [e2]
    show some (matrixRows cov) = some (rowsOf cov)
    unfold matrixRows rowsOf
    rw [List.ofFn_eq_map]
    congr 1
    apply List.map_congr_left
    intro i _
    rw [List.ofFn_eq_map]

/-- **C152, fits.** A fit with `model=True` and the default `cond_max` (or a larger one) whose times are whole multiples of a time, the longest fewer than ten thousand: the matrix that is inverted is the matrix of the random walk
model, as computed. -/
theorem C152_fit {L : GlsLib K} {a : GlsArgs K} {b b' : Boot K} (h : bootstrapGLS L a b = (b', .ok ())) (hm : a.model = true) (heig : Diagonalises L) (hnear : KeepsCovariance L) (hcm : 10 ^ 16 ≤ a.condMax)
    (α : K) (hα : b'.popt = some α) (hα0 : 0 < α) (hb : InverseCounts b ∧ Aligned b) (u : K) (hu : 0 < u) (l : List ℕ) (hl : b.dt = l.map fun τ : ℕ => (τ : K) * u) (hl1 : ∀ τ ∈ l, τ < 10000) :
    b'.covariance = b'.npdCovariance := by
  obtain ⟨r, m, v, M, B, e1, e2, e3, e4, e5, e6, e7⟩ := bootstrapGLS_condition h
  obtain ⟨r', α', v', p1, p2, p3, p4⟩ := bootstrapGLS_model h hm
  rw [e1] at p1
  obtain rfl := Except.ok.inj p1
  rw [hα] at p2
  obtain rfl := Option.some.inj p2
  rw [e2] at p4
  obtain rfl := Option.some.inj p4
  obtain ⟨⟨⟨κ, hκ⟩, ht, hn⟩, l1, l2, l3⟩ := hb
  obtain ⟨hr, -⟩ := diffRegime_ok_iff.mp e1
  set nf : ℕ → K := fun i => (b.nO.drop r).getD i 0 with hN
  set lf : ℕ → ℕ := fun i => (l.drop r).getD i 0 with hlf
  set k := b.dt.length - r with hk
  have hll : l.length = b.dt.length := by rw [hl]; simp
  have gl : ∀ i < k, b.dt[r + i]? = some ((lf i : K) * u) := fun i hi => by
    rw [hl, List.getElem?_map, hlf]
    simp only
    rw [List.getD_eq_getElem?_getD, List.getElem?_drop, List.getElem?_eq_getElem (by omega)]
    rfl
  have gn : ∀ i < k, b.nO[r + i]? = some (nf i) := fun i hi => by
    rw [hN]
    simp only
    rw [List.getD_eq_getElem?_getD, List.getElem?_drop, List.getElem?_eq_getElem (by omega)]; rfl
  have d1 : b.dt.drop r = List.ofFn fun i : Fin k => (lf i : K) * u := by
    apply List.ext_getElem?
    intro i
    rw [List.getElem?_drop]
    by_cases hi : i < k
    · rw [gl i hi, List.getElem?_eq_getElem (by simpa using hi)]; simp
    · rw [List.getElem?_eq_none (by omega), List.getElem?_eq_none (by simpa using hi)]
  have d2 : b.nO.drop r = List.ofFn fun i : Fin k => nf i := by
    apply List.ext_getElem?
    intro i
    rw [List.getElem?_drop]
    by_cases hi : i < k
    · rw [gn i hi, List.getElem?_eq_getElem (by simpa using hi)]; simp
    · rw [List.getElem?_eq_none (by omega), List.getElem?_eq_none (by simpa using hi)]
  have hnp : ∀ i < k, 0 < nf i := fun i hi => hn _ (List.mem_of_getElem? (gn i hi))
  have htp : ∀ i < k, 0 < (lf i : K) * u := fun i hi => ht _ (List.mem_of_getElem? (gl i hi))
  have hlp : ∀ i < k, 1 ≤ lf i := fun i hi => by
    have := pos_of_mul_pos_left (htp i hi) hu.le
    exact_mod_cast this
  have hc : ∀ i < k, nf i * (lf i * u) = κ := fun i hi => hκ _ _ _ (gl i hi) (gn i hi)
  have hκp : 0 < κ := by rw [← hc 0 (by omega)]; exact mul_pos (hnp 0 (by omega)) (htp 0 (by omega))
  have hmono : ∀ i j, i < j → j < k → lf i < lf j := by
    intro i j hij hj
    have := List.pairwise_iff_getElem.1 l3 (r + i) (r + j) (by omega) (by omega) (by omega)
    have h1 := gl i (by omega)
    have h2 := gl j hj
    rw [List.getElem?_eq_getElem (by omega)] at h1 h2
    rw [Option.some.inj h1, Option.some.inj h2] at this
    exact_mod_cast lt_of_mul_lt_mul_right this hu.le
  have hle : ∀ i < k, lf i ≤ 9999 := fun i hi => by
    have : lf i ∈ l := by
      refine List.mem_of_getElem? (i := r + i) ?_
      rw [hlf]
      simp only
      rw [List.getD_eq_getElem?_getD, List.getElem?_drop, List.getElem?_eq_getElem (by omega)]; rfl
    have := hl1 _ this
    omega
  have hmv := (model_cov (fun i : Fin k => nf i) (fun i : Fin k => (lf i : K) * u) α κ (fun i => hnp i i.2) (fun i => hc i i.2) hκp.le hα0.le (fun i j hij => by
    rcases hij.lt_or_eq with h | rfl
    · exact (mul_lt_mul_of_pos_right (by exact_mod_cast hmono i j h j.2) hu).le
    · exact le_refl _)).1
  rw [d1, d2, hmv] at p3
  have hvv := Except.ok.inj p3
  have hmk : m = k := by rw [← e3, ← hvv]; simp
  subst hmk
  obtain ⟨A, g1, -⟩ := C40_covariance (fun i : Fin k => α / nf i * (lf i * u) ^ 2) (fun i : Fin k => nf i) [] fun i => (hnp i i.2).ne'
  rw [List.append_nil] at g1
  have hMA : M = rowsOf A := by
    rw [← hvv, d2, g1] at e4
    exact (Except.ok.inj e4).symm
  obtain ⟨q1, q2, q3, q4⟩ := C152_matrix lf nf u α κ 9999 hu hα0 hκp hmono hlp hle hc A g1
  rw [hMA] at e5
  have hB := condition_keeps heig hnear q1 q2 q3 (by refine le_trans ?_ hcm; norm_num) (le_trans (by norm_num) hcm) (fun x => by
    have h0 : 0 ≤ ∑ i, ∑ j, x i * A i j * x j := by
      by_cases hx : x = 0
      · rw [hx]; simp
      · exact (q2 x hx).le
    have := q4 x
    rw [div_mul_eq_mul_div, div_le_iff₀ (by positivity), one_mul]
    refine this.trans ?_
    rw [mul_comm]
    refine mul_le_mul_of_nonneg_left ?_ h0
    norm_num) e5
  rw [e6, e7, hMA, hB]

/-- **C152, runs.** From the file to the matrix: a trajectory of fewer than ten thousand frames in any format, read with the default intervals, MSD, MSTD or MSCD, and a fit with `model=True` and the default `cond_max`.  The matrix is not
changed by the conditioning, and the line from which the walkers of a fit with an intercept start is that of the random walk model. -/
theorem C152_runs (E : Num K) (P : Params K) (S : Select K) (sy : List String) (atoms fw : List ℕ) (hS : Picks S sy atoms fw) (hP : DefaultGrid E P) (F : ℕ) (hF : 2 ≤ F) (hF' : F < 10000) (C : ℕ → M3 K) (V : ℕ → K)
    (s x : ℕ → ℕ → V3 K) (hs : StoredIn F sy.length C s x) (base : PyM (Base K)) (unit : K) (hbase : ReadFrames E P S (cellFrames F sy C V s) (cellUniverse F sy C V s) base unit) (sq : K → K) (o : Oracle K G)
    (U : UncParams K) (hsub : U.sub = 1) (charge : Charge K) (g₁ g₂ : G) (Z : Analyzer K)
    (h : diffusionAnalyzer sq o g₁ U base = .ok (Z, g₂) ∨ jumpAnalyzer sq o g₁ U base = .ok (Z, g₂) ∨ conductivityAnalyzer sq o g₁ U charge base = .ok (Z, g₂)) (L : GlsLib K) (a : GlsArgs K) (b' : Boot K)
    (hg : bootstrapGLS L a Z.diff = (b', .ok ())) (hm : a.model = true) (heig : Diagonalises L) (hnear : KeepsCovariance L) (hcm : 10 ^ 16 ≤ a.condMax) (α : K) (hα : b'.popt = some α) (hα0 : 0 < α) :
    b'.covariance = b'.npdCovariance ∧
      (a.fitIntercept = true → FindsMaximum L.minimize → (∀ m A P, PD A → L.pinvh m A = .ok P → A * P = 1) →
        ∃ (r : ℕ) (t₀ g c : K) (ll : List K → Option K) (chain : List (List K)), Z.diff.dt[r]? = some t₀ ∧ a.startDt ≤ t₀ ∧ (∀ (k : ℕ) (t : K), k < r → Z.diff.dt[k]? = some t → t < a.startDt) ∧ ModelFit Z.diff r g c ∧
          b'.flatchain = some chain ∧ getChain a.nBurn a.thin (runChain L ll (a.nSamples + a.nBurn) 0 ((List.range a.nWalkers).map fun w =>
            [g + g * (1 / 1000) * L.randn w 0, c + c * (1 / 1000) * L.randn w 1])) = .ok chain) := by
  obtain ⟨hal, hu, l, -, hl1, hl⟩ := run_grid_range hS hP hF hs hbase hsub h
  have hcov := C152_fit hg hm heig hnear hcm α hα hα0 hal _ hu l hl fun τ hτ => by have := (hl1 τ hτ).2; omega
  refine ⟨hcov, fun hi hmin hinv => ?_⟩
  obtain ⟨r, m, W, t₁, ld, g, c, best, chain, a1, a2, a3, a4, a5, a6, a7, a8⟩ := C149_model hg hi hm hcov hmin hinv α hα hα0 hal
  exact ⟨r, t₁, g, c, _, chain, a1, a2, a3, a4, a6, a7⟩

/-! ## Examples -/

/-- `C152_matrix` for the times 1, 2, 4 (in units of 3) with 4, 2, 1 observations: the eigenvalues are within a factor of 400. -/
example : ∃ A : Matrix (Fin 3) (Fin 3) ℚ, EigenvaluesWithin 400 A ∧ ∀ x : Fin 3 → ℚ, ∑ i, A i i * x i ^ 2 ≤ 20 * ∑ i, ∑ j, x i * A i j * x j := by
  obtain ⟨A, g1, -⟩ := C40_covariance (fun i : Fin 3 => 2 / exIncr [4, 2, 1] i * (([1, 2, 4].getD i 0 : ℕ) * 3 : ℚ) ^ 2) (fun i : Fin 3 => exIncr [4, 2, 1] i) [] (by decide +kernel)
  rw [List.append_nil] at g1
  obtain ⟨-, -, h1, h2⟩ := C152_matrix (m := 3) (fun i => [1, 2, 4].getD i 0) (exIncr [4, 2, 1]) (3 : ℚ) 2 12 4 (by norm_num) (by norm_num) (by norm_num)
    (fun i j hij hj => (show ∀ j < 3, ∀ i < j, ([1, 2, 4] : List ℕ).getD i 0 < [1, 2, 4].getD j 0 from by decide) j hj i hij)
    (by decide) (by decide) (by decide +kernel) A g1
  refine ⟨A, ?_, fun x => ?_⟩
  · have e : ((4 : ℕ) : ℚ) ^ 2 * ((4 : ℕ) + 1) ^ 2 = 400 := by norm_num
    rw [e] at h1
    exact h1
  · have e : ((4 : ℕ) : ℚ) * ((4 : ℕ) + 1) = 20 := by norm_num
    have := h2 x
    rw [e] at this
    exact this

/-- A symmetric matrix has orthonormal eigenvectors. -/
theorem symm_eig {m : ℕ} (A : Matrix (Fin m) (Fin m) ℝ) (h : ∀ i j, A i j = A j i) : ∃ (ev : Fin m → ℝ) (V : Matrix (Fin m) (Fin m) ℝ), IsEig A ev V := by
  have hA : A.IsHermitian := by
    rw [Matrix.IsHermitian, Matrix.conjTranspose_eq_transpose_of_trivial]
    funext i j
    exact h j i
  refine ⟨hA.eigenvalues, (hA.eigenvectorUnitary : Matrix (Fin m) (Fin m) ℝ), ?_, ?_⟩
  · have := Unitary.star_mul_self_of_mem hA.eigenvectorUnitary.2
    rw [Matrix.star_eq_conjTranspose, Matrix.conjTranspose_eq_transpose_of_trivial] at this
    exact this
  · have := hA.spectral_theorem
    rw [Unitary.conjStarAlgAut_apply] at this
    exact this

open Classical in
/-- Routines that do their work, with orthonormal eigenvectors, and leave positive definite matrices alone. -/
noncomputable def exKeepLib : GlsLib ℝ := { exRunLib with
  eig := fun m A => if h : ∀ i j, A i j = A j i then .ok ((symm_eig A h).choose, (symm_eig A h).choose_spec.choose) else .error .linAlgError
  covNearest := fun m A => if PD A then .ok A else .ok 1 }

theorem exKeepLib_eig : Diagonalises exKeepLib := by
  intro m A ev V hs h
  simp only [exKeepLib] at h
  rw [dif_pos hs] at h
  obtain ⟨rfl, rfl⟩ := Prod.mk.inj (Except.ok.inj h)
  exact (symm_eig A hs).choose_spec.choose_spec

theorem exKeepLib_near : KeepsCovariance exKeepLib := by
  intro m A B hs hd hc h
  simp only [exKeepLib] at h
  rw [if_pos] at h
  · exact (Except.ok.inj h).symm
  · intro x hx
    refine lt_of_lt_of_le ?_ (hc x)
    obtain ⟨i, hi⟩ := Function.ne_iff.1 hx
    have : 0 < ∑ i, A i i * x i ^ 2 := Finset.sum_pos' (fun j _ => mul_nonneg (hd j).le (sq_nonneg _)) ⟨i, Finset.mem_univ _, mul_pos (hd i) (lt_of_le_of_ne (sq_nonneg _) (Ne.symm (pow_ne_zero 2 hi)))⟩
    positivity

theorem exKeepLib_runs : LibraryRuns exKeepLib 2 4 where
  curveFit := exRunLib_runs.curveFit
  eig m A h := by
    have hs : ∀ i j, A i j = A j i := fun i j => congrFun (congrFun h j) i
    refine ⟨_, _, ?_, (symm_eig A hs).choose_spec.choose_spec.2.symm⟩
    simp only [exKeepLib]
    rw [dif_pos hs]
  covNearest m A h1 h2 := by
    simp only [exKeepLib]
    by_cases h : PD A
    · rw [if_pos h]; exact ⟨A, rfl, h⟩
    · rw [if_neg h]
      obtain ⟨B, k1, k2⟩ := exRunLib_runs.covNearest m A h1 h2
      exact ⟨1, rfl, by rw [show B = 1 from (Except.ok.inj k1).symm] at k2; exact k2⟩
  slogdet := exRunLib_runs.slogdet
  pinvh := exRunLib_runs.pinvh
  linregress := exRunLib_runs.linregress
  minimize := exRunLib_runs.minimize
  randn := exRunLib_runs.randn
  emceeCheck := exRunLib_runs.emceeCheck
  propose := exRunLib_runs.propose
  dist := exRunLib_runs.dist

/-- The fitted coefficient is the one that `curve_fit` returns. -/
theorem bootstrapGLS_coefficient {L : GlsLib K} {a : GlsArgs K} {b b' : Boot K} (h : bootstrapGLS L a b = (b', .ok ())) (hm : a.model = true) :
    ∃ (r : ℕ) (α : K), diffRegime b.dt a.startDt = .ok r ∧ L.curveFit (b.nO.drop r) (b.dt.drop r) (b.v.drop r) = .ok α ∧ b'.popt = some α := by
  unfold bootstrapGLS at h
  rw [show (markFit a b).dt = b.dt from rfl] at h
  cases hr : diffRegime b.dt a.startDt with
  | error e => rw [hr] at h; cases (Prod.mk.inj h).2
  | ok r =>
  rw [hr] at h
  simp only [fitFrom] at h
  unfold generateCovariance chooseVariances at h
  rw [if_pos hm] at h
  unfold modelBranch at h
  cases hc : L.curveFit ((markFit a b).nO.drop r) ((markFit a b).dt.drop r) ((markFit a b).v.drop r) with
  | error e => rw [hc] at h; cases (Prod.mk.inj h).2
  | ok α =>
  rw [hc] at h
  simp only at h
  refine ⟨r, α, rfl, hc, ?_⟩
  split at h
  · cases (Prod.mk.inj h).2
  · rename_i b2 m cov hg
    split at hg
    · cases (Prod.mk.inj hg).2
    · rename_i b1 v hv
      split at hv
      · cases (Prod.mk.inj hv).2
      · have e1 := (Prod.mk.inj hv).1
        split at hg
        · cases (Prod.mk.inj hg).2
        · split at hg
          · cases (Prod.mk.inj hg).2
          · have e2 := (Prod.mk.inj hg).1
            split at h
            · cases (Prod.mk.inj h).2
            · obtain ⟨-, ⟨gr, ic, e3⟩, -⟩ := storeChain_fit h
              rw [e3, ← e2, ← e1]

/-- `C152_fit`: a fit of two of three intervals. -/
example : ∃ b', bootstrapGLS exKeepLib { exRunArgs with condMax := 10 ^ 16, model := true } exRunBoot = (b', .ok ()) ∧ b'.covariance = b'.npdCovariance := by
  obtain ⟨b', g, h, -⟩ := C130_fit exKeepLib { exRunArgs with condMax := 10 ^ 16, model := true } exRunBoot exKeepLib_runs
    (by
      constructor
      · rfl
      · rfl
      · rfl
      · norm_num [exRunBoot]
      · intro t ht; simp [exRunBoot] at ht; rcases ht with rfl | rfl | rfl <;> norm_num
      · intro t ht; simp [exRunBoot] at ht; rcases ht with rfl | rfl | rfl <;> norm_num
      · intro t ht; simp [exRunBoot] at ht; rcases ht with rfl | rfl | rfl <;> norm_num)
    (by
      refine ⟨?_, ?_, ?_, ?_, ?_⟩
      · simp [exRunArgs, exRunBoot, List.filter_cons]; norm_num
      · simp
      · decide +kernel
      · decide +kernel
      · decide +kernel)
  obtain ⟨r, α, -, h2, h3⟩ := bootstrapGLS_coefficient h rfl
  obtain rfl : 1 = α := Except.ok.inj h2
  refine ⟨b', h, C152_fit h rfl exKeepLib_eig exKeepLib_near (le_refl _) 1 h3 one_pos ⟨⟨⟨6, ?_⟩, by simp [exRunBoot], by simp [exRunBoot]⟩, rfl, rfl, by simp [exRunBoot]; norm_num⟩ 1 one_pos [1, 2, 3] (by simp [exRunBoot]) (by simp)⟩
  intro k t N h1 h2
  match k with
  | 0 => cases h1; cases h2; norm_num
  | 1 => cases h1; cases h2; norm_num
  | 2 => cases h1; cases h2; norm_num
  | k + 3 => cases h1

/-- Routines for the last interval alone. -/
def exLastLib : GlsLib ℚ := { exRayLib with
  curveFit := fun _ _ _ => .ok 2
  eig := fun m A => match m, A with
    | 0, A => .ok (fun _ => A 0 0, 1)
    | _, _ => .error .linAlgError
  pinvh := fun m A => match m, A with
    | 1, A => .ok fun _ _ => 1 / A 0 0
    | _, _ => .error .linAlgError
  linregress := fun _ _ => .ok 1 }

theorem exLastLib_eig : Diagonalises exLastLib := by
  intro m A ev V hs h
  match m, A, ev, V, h with
  | 0, A, ev, V, h =>
    obtain ⟨rfl, rfl⟩ := Prod.mk.inj (Except.ok.inj h)
    refine ⟨by simp, ?_⟩
    funext i j
    obtain rfl : i = 0 := Fin.ext (by have := i.2; simp only [Fin.val_zero]; omega)
    obtain rfl : j = 0 := Fin.ext (by have := j.2; simp only [Fin.val_zero]; omega)
    simp
  | m + 1, A, ev, V, h => cases h

/-- `C152_runs`: the fit of the last of four intervals of the trajectory of C139. -/
example : ∃ (Z : Analyzer ℚ) (b' : Boot ℚ), diffusionAnalyzer id (exOracle ℚ) () exUnc (exFineBase fun i j k => exIonPath exFine i j k / 10) = .ok (Z, ()) ∧
    bootstrapGLS exLastLib { exArgs 20 false with model := true, condMax := 10 ^ 16 } Z.diff = (b', .ok ()) ∧ b'.covariance = b'.npdCovariance ∧ b'.covariance ≠ none := by
  have k : ((diffusionAnalyzer id (exOracle ℚ) () exUnc (exFineBase fun i j k => exIonPath exFine i j k / 10)).toOption.map fun z =>
      ((bootstrapGLS exLastLib { exArgs 20 false with model := true, condMax := 10 ^ 16 } z.1.diff).2.toOption, (bootstrapGLS exLastLib { exArgs 20 false with model := true, condMax := 10 ^ 16 } z.1.diff).1.popt,
        (bootstrapGLS exLastLib { exArgs 20 false with model := true, condMax := 10 ^ 16 } z.1.diff).1.covariance.isSome)) = some (some (), some 2, true) := by decide +kernel
  obtain ⟨Z, h, -⟩ := exRun_values (x := diffusionAnalyzer id (exOracle ℚ) () exUnc (exFineBase fun i j k => exIonPath exFine i j k / 10))
    (y := [244428613 / 882000000, 38200339 / 41343750, 125593829 / 73500000, 250001 / 180000]) (n := [8, 4, 8 / 3, 2]) (t := [6, 12, 18, 24]) (by decide +kernel)
  rw [h] at k
  simp only [Except.toOption, Option.map_some, Option.some.injEq, Prod.mk.injEq] at k
  obtain ⟨k1, k2, k3⟩ := k
  refine ⟨Z, _, h, ok_of_outcome k1, ?_, fun h0 => by rw [h0] at k3; cases k3⟩
  exact (C152_runs exNum exParams exIons ["Na", "O", "Cl"] [0, 2] [1] exIons_picks exGrid 4 (by decide) (by decide) _ _ _ (exIonPath exFine) (exIon_stored (by unfold HalfCell; decide +kernel)) _ 1 (.inl ⟨rfl, rfl⟩) id (exOracle ℚ)
    exUnc rfl (.scalar 1) () () Z (.inl h) exLastLib _ _ (ok_of_outcome k1) rfl exLastLib_eig (fun m A B _ _ _ h => (Except.ok.inj h).symm) (le_refl _) 2 k2 (by norm_num)).1

end Kinisi
