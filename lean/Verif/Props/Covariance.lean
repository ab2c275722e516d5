import Verif.Lemmas.Covariance
import Verif.Props.GetDisps

/-!
# C40–C43: the covariance matrix
-/

set_option linter.unusedSectionVars false
set_option linter.unusedVariables false

namespace Kinisi
open Spec
variable {K : Type} [Field K] [LinearOrder K] [IsStrictOrderedRing K] [FloorRing K]

theorem rowsOf_injective {m : ℕ} {A B : Matrix (Fin m) (Fin m) K} (h : rowsOf A = rowsOf B) : A = B := by
  have h1 := List.ofFn_injective h
  funext i j
  have h2 := List.ofFn_injective (congrFun h1 i)
  exact Option.some.inj (congrFun h2 j)

theorem eq_rowsOf {m : ℕ} {M : List (List (Option K))} (hs : Square m M) (A : Matrix (Fin m) (Fin m) K)
    (h : ∀ i j : Fin m, getEntry M i j = some (some (A i j))) : M = rowsOf A := by
  apply List.ext_getElem
  · rw [hs.1, rowsOf, List.length_ofFn]
  · intro i h1 h2
    have hi : i < m := by rw [hs.1] at h1; exact h1
    apply List.ext_getElem
    · rw [hs.2 _ (List.getElem_mem h1)]; simp [rowsOf]
    · intro j h3 h4
      have hj : j < m := by rw [hs.2 _ (List.getElem_mem h1)] at h3; exact h3
      have := h ⟨i, hi⟩ ⟨j, hj⟩
      unfold getEntry at this
      dsimp only at this
      rw [List.getElem?_eq_getElem h1] at this
      simp only [Option.bind_some] at this
      rw [List.getElem?_eq_getElem h3] at this
      rw [Option.some.inj this]
      simp [rowsOf]

/-! ## C40 -/

/-- **C40.** The populated matrix is square of the size of the variance array, symmetric, has the variances on its diagonal, and entry
`(i, j)` with `i ≤ j` is `v[i] * n[i] / n[j]`.  `extra` are entries of `n_o` beyond the variances. -/
theorem C40_covariance {m : ℕ} (v n : Fin m → K) (extra : List K) (hn : ∀ i, n i ≠ 0) :
    ∃ A : Matrix (Fin m) (Fin m) K,
      populateCovariance (List.ofFn fun i => some (v i)) (List.ofFn n ++ extra) = .ok (rowsOf A) ∧
      (∀ i j, A i j = A j i) ∧ (∀ i, A i i = v i) ∧ ∀ i j, i ≤ j → A i j = v i * (n i / n j) := by
  have hget : ∀ i : Fin m, (List.ofFn n ++ extra).getD i 0 = n i := by
    intro i
    rw [List.getD_eq_getElem?_getD, List.getElem?_append_left (by simp), List.getElem?_eq_getElem (by simp)]
    simp
  have hv : ∀ i : Fin m, (List.ofFn fun i => some (v i)).getD i none = some (v i) := by
    intro i
    rw [List.getD_eq_getElem?_getD, List.getElem?_eq_getElem (by simp)]
    simp
  have hval : ∀ i j : Fin m, covValue (List.ofFn fun i => some (v i)) (List.ofFn n ++ extra) i j = some (v i * (n i / n j)) := by
    intro i j
    unfold covValue
    rw [hget, hget, hv]
    simp only [npDiv, Option.bind_some, if_neg (hn j), npMul, Option.map_some]
    rw [mul_comm]
  refine ⟨fun i j => v (min i j) * (n (min i j) / n (max i j)), ?_, ?_, ?_, ?_⟩
  · rw [populateCovariance_eq (by simp)]
    congr 1
    have hl : (List.ofFn fun i => some (v i)).length = m := by simp
    rw [hl]
    apply eq_rowsOf (square_writeAll _ _ (square_replicate m _))
    intro i j
    rw [getEntry_writeAll _ _ (fun p hp => (mem_allPairs.mp hp).1) (square_replicate m _) i.isLt j.isLt, if_pos]
    · rw [← hval]; congr 2
    · rw [mem_allPairs]
      dsimp only
      constructor
      · exact min_le_max
      · exact max_lt i.isLt j.isLt
  · intro i j; dsimp only; rw [min_comm, max_comm]
  · intro i; dsimp only; rw [min_self, max_self, div_self (hn i), mul_one]
  · intro i j h; dsimp only; rw [min_eq_left h, max_eq_right h]

/-- **C40, other outcome.** With fewer values of `n_o` than variances: IndexError. -/
theorem C40_short (v : List (Option K)) (n : List K) (h : n.length < v.length) : populateCovariance v n = .error .indexError :=
  populateCovariance_short h

example : (populateCovariance [some (1 : ℚ), some 5, some 7] [6, 3, 2]).toOption =
    some [[some 1, some 2, some 3], [some 2, some 5, some (15 / 2)], [some 3, some (15 / 2), some 7]] := by decide +kernel

/-! ## C41 -/

/-- The form in terms of `w = v n²`. -/
theorem cov_form {m : ℕ} (v n : Fin m → K) (hn : ∀ i, 0 < n i) (A : Matrix (Fin m) (Fin m) K) (hs : ∀ i j, A i j = A j i)
    (hA : ∀ i j, i ≤ j → A i j = v i * (n i / n j)) (w : ℕ → K) (hw : ∀ i : Fin m, w i = v i * n i ^ 2) (x : Fin m → K) :
    ∑ i, ∑ j, x i * A i j * x j = ∑ k ∈ Finset.range m, incr w k * tailSum (fun i => x i / n i) k ^ 2 := by
  rw [← min_form]
  apply Finset.sum_congr rfl
  intro i _
  apply Finset.sum_congr rfl
  intro j _
  have hi := (hn i).ne'
  have hj := (hn j).ne'
  rcases le_total i j with h | h
  · rw [hA i j h, min_eq_left (show i.val ≤ j.val from h), hw]
    field_simp
  · rw [hs, hA j i h, min_eq_right (show j.val ≤ i.val from h), hw]
    field_simp

/-- Extension of `w` by zero. -/
def extendSeq {m : ℕ} (w : Fin m → K) (k : ℕ) : K := if h : k < m then w ⟨k, h⟩ else 0

theorem extendSeq_val {m : ℕ} (w : Fin m → K) (i : Fin m) : extendSeq w i = w i := by
  unfold extendSeq; rw [dif_pos i.isLt]

/-- The test vector `n_i e_i - n_j e_j` (or `n_i e_i`). -/
theorem tail_test {m : ℕ} (n : Fin m → K) (hn : ∀ i, 0 < n i) (i j : Fin m) (a b : K) (x : Fin m → K)
    (hx : x = fun k => (if k = i then a * n i else 0) + if k = j then b * n j else 0) (w : ℕ → K) :
    ∑ p : Fin m, ∑ q : Fin m, (x p / n p) * w (min p.val q.val) * (x q / n q) =
      a ^ 2 * w i + 2 * a * b * w (min i.val j.val) + b ^ 2 * w j := by
  have h1 : ∀ p, x p / n p = (if p = i then a else 0) + if p = j then b else 0 := by
    intro p
    subst hx
    dsimp only
    have := (hn p).ne'
    by_cases hp : p = i <;> by_cases hq : p = j
    · subst hp; subst hq; simp; field_simp
    · subst hp; simp [hq]; field_simp
    · subst hq; simp [hp]; field_simp
    · simp [hp, hq]
  simp only [h1, add_mul, mul_add, Finset.sum_add_distrib, ite_mul, mul_ite, zero_mul, mul_zero, Finset.sum_ite_eq', Finset.mem_univ,
    if_true]
  rw [min_self, min_self, min_comm j.val i.val]
  ring

/-- **C41.** With positive `n_o` the populated matrix is positive semi-definite exactly when `v n_o²` is non-negative and non-decreasing,
and positive definite exactly when it is positive and strictly increasing. -/
theorem C41_psd_iff {m : ℕ} (v n : Fin m → K) (extra : List K) (hn : ∀ i, 0 < n i) (A : Matrix (Fin m) (Fin m) K)
    (h : populateCovariance (List.ofFn fun i => some (v i)) (List.ofFn n ++ extra) = .ok (rowsOf A)) :
    (PSD A ↔ (∀ i, 0 ≤ v i * n i ^ 2) ∧ ∀ i j, i ≤ j → v i * n i ^ 2 ≤ v j * n j ^ 2) ∧
    (PD A ↔ (∀ i, 0 < v i * n i ^ 2) ∧ ∀ i j, i < j → v i * n i ^ 2 < v j * n j ^ 2) := by
  obtain ⟨A', h1, h2, -, h4⟩ := C40_covariance v n extra fun i => (hn i).ne'
  rw [h] at h1
  obtain rfl := rowsOf_injective (Except.ok.inj h1)
  set w := extendSeq fun i => v i * n i ^ 2 with hw
  have hwv : ∀ i : Fin m, w i = v i * n i ^ 2 := extendSeq_val _
  have hwn : ∀ k (hk : k < m), w k = v ⟨k, hk⟩ * n ⟨k, hk⟩ ^ 2 := fun k hk => hwv ⟨k, hk⟩
  have hform := cov_form v n hn A h2 h4 w hwv
  have htest := fun i j a b => tail_test n hn i j a b _ rfl w
  have hform' : ∀ x : Fin m → K, ∑ i, ∑ j, x i * A i j * x j =
      ∑ p : Fin m, ∑ q : Fin m, (x p / n p) * w (min p.val q.val) * (x q / n q) := fun x => by
    rw [hform x, ← min_form]
  constructor
  · constructor
    · intro hp
      constructor
      · intro i
        have := hp (fun k => (if k = i then 1 * n i else 0) + if k = i then 0 * n i else 0)
        rw [hform', htest i i 1 0] at this
        simp only [hwv] at this
        linarith
      · intro i j hij
        have := hp (fun k => (if k = i then 1 * n i else 0) + if k = j then (-1) * n j else 0)
        rw [hform', htest i j 1 (-1), min_eq_left (show i.val ≤ j.val from hij)] at this
        simp only [hwv] at this
        linarith
    · rintro ⟨h5, h6⟩ x
      rw [hform]
      apply Finset.sum_nonneg
      intro k hk
      have hk := Finset.mem_range.mp hk
      apply mul_nonneg _ (sq_nonneg _)
      cases k with
      | zero => unfold incr; rw [show (0 : ℕ) = (⟨0, hk⟩ : Fin m).val from rfl, hwv]; exact h5 _
      | succ k =>
        have hk' : k < m := by omega
        show 0 ≤ w (k + 1) - w k
        rw [hwn _ hk, hwn _ hk']
        have := h6 ⟨k, hk'⟩ ⟨k + 1, hk⟩ (by simp)
        linarith
  · constructor
    · intro hp
      constructor
      · intro i
        have hne : (fun k => (if k = i then 1 * n i else 0) + if k = i then 0 * n i else 0) ≠ (0 : Fin m → K) := by
          intro hh
          have := congrFun hh i
          simp at this
          exact (hn i).ne' this
        have := hp _ hne
        rw [hform', htest i i 1 0] at this
        simp only [hwv] at this
        linarith
      · intro i j hij
        have hne : (fun k => (if k = i then 1 * n i else 0) + if k = j then (-1) * n j else 0) ≠ (0 : Fin m → K) := by
          intro hh
          have := congrFun hh i
          simp [hij.ne] at this
          exact (hn i).ne' this
        have := hp _ hne
        rw [hform', htest i j 1 (-1), min_eq_left (show i.val ≤ j.val from hij.le)] at this
        simp only [hwv] at this
        linarith
    · rintro ⟨h5, h6⟩ x hx
      rw [hform]
      have hpos : ∀ k < m, 0 < incr w k := by
        intro k hk
        cases k with
        | zero => unfold incr; rw [show (0 : ℕ) = (⟨0, hk⟩ : Fin m).val from rfl, hwv]; exact h5 _
        | succ k =>
          have hk' : k < m := by omega
          show 0 < w (k + 1) - w k
          rw [hwn _ hk, hwn _ hk']
          have := h6 ⟨k, hk'⟩ ⟨k + 1, hk⟩ (by simp [Fin.lt_def])
          linarith
      have hnn : ∀ k ∈ Finset.range m, 0 ≤ incr w k * tailSum (fun i => x i / n i) k ^ 2 := fun k hk =>
        mul_nonneg (hpos k (Finset.mem_range.mp hk)).le (sq_nonneg _)
      rcases (Finset.sum_nonneg hnn).lt_or_eq with hlt | heq
      · exact hlt
      · exfalso
        apply hx
        have hz := (Finset.sum_eq_zero_iff_of_nonneg hnn).mp heq.symm
        have hy := eq_zero_of_tailSums (fun i => x i / n i) fun k hk => by
          have := hz k (Finset.mem_range.mpr hk)
          exact pow_eq_zero_iff two_ne_zero |>.mp ((mul_eq_zero.mp this).resolve_left (hpos k hk).ne')
        funext i
        have := congrFun hy i
        simp only [Pi.zero_apply, div_eq_zero_iff, (hn i).ne', or_false] at this
        simpa using this

/-- The matrix of the C40 example: `v n² = 36, 45, 28` is not ordered, so the matrix is not positive semi-definite: the vector `(0, 3, -2)`. -/
example : (∑ i : Fin 3, ∑ j : Fin 3, ![(0 : ℚ), 3, -2] i * ![![(1 : ℚ), 2, 3], ![2, 5, 15 / 2], ![3, 15 / 2, 7]] i j * ![(0 : ℚ), 3, -2] j) = -17 := by
  decide +kernel

/-! ## C42 -/

theorem model_cov {m : ℕ} (n t : Fin m → K) (a c : K) (hn : ∀ i, 0 < n i) (hc : ∀ i, n i * t i = c) (hc0 : 0 ≤ c) (ha : 0 ≤ a)
    (ht : ∀ i j, i ≤ j → t i ≤ t j) :
    modelVariance (List.ofFn n) (List.ofFn t) a = .ok (List.ofFn fun i => some (a / n i * t i ^ 2)) ∧
    ∃ A : Matrix (Fin m) (Fin m) K,
      populateCovariance (List.ofFn fun i => some (a / n i * t i ^ 2)) (List.ofFn n) = .ok (rowsOf A) ∧
      (∀ i j, A i j = A j i) ∧ PSD A ∧ (0 < a → 0 < c → (∀ i j, i < j → t i < t j) → PD A) := by
  have hw : ∀ i, a / n i * t i ^ 2 * n i ^ 2 = a * c * t i := by
    intro i
    have := (hn i).ne'
    rw [← hc i]
    field_simp
  have ht0 : ∀ i, 0 ≤ t i := fun i => nonneg_of_mul_nonneg_right (by rw [hc i]; exact hc0) (hn i)
  constructor
  · unfold modelVariance
    rw [if_pos (by simp)]
    congr 1
    apply List.ext_getElem
    · simp
    · intro i h1 h2
      simp only [List.getElem_map, List.getElem_zip, List.getElem_ofFn]
      have hi : i < m := by simpa using h2
      simp only [npDiv, Option.bind_some, if_neg (hn ⟨i, hi⟩).ne', npMul, Option.map_some]
  · obtain ⟨A, h1, h2, -, -⟩ := C40_covariance (fun i => a / n i * t i ^ 2) n [] fun i => (hn i).ne'
    obtain ⟨h3, h4⟩ := C41_psd_iff _ n [] hn A h1
    rw [List.append_nil] at h1
    refine ⟨A, h1, h2, h3.mpr ⟨?_, ?_⟩, ?_⟩
    · intro i; rw [hw]; exact mul_nonneg (mul_nonneg ha hc0) (ht0 i)
    · intro i j hij; rw [hw, hw]; exact mul_le_mul_of_nonneg_left (ht i j hij) (mul_nonneg ha hc0)
    · intro ha' hc' hst
      have htp : ∀ i, 0 < t i := fun i => (pos_iff_pos_of_mul_pos (by rw [hc i]; exact hc')).mp (hn i)
      refine h4.mpr ⟨?_, ?_⟩
      · intro i; rw [hw]; exact mul_pos (mul_pos ha' hc') (htp i)
      · intro i j hij; rw [hw, hw]; exact mul_lt_mul_of_pos_left (hst i j hij) (mul_pos ha' hc')

/-- **C42.** `model=True` with the `n_o` and `dt` of a multi-origin parse (exact arithmetic, ordered intervals): whatever prefix of the intervals is
analysed (`P`), wherever the fit starts (`r`), and whatever non-negative coefficient `a` the fit of the variances gives, the covariance
matrix is symmetric and positive semi-definite, and positive definite for `a > 0` and distinct intervals. -/
theorem C42_model_psd (giga : K) (itemsize : ℕ) (ts ss : PyNum K) (idx : List ℤ) (limit : K)
    (intervals : List ℕ) (dc : Arr3 K) (hidx : ∀ d ∈ idx, ValidIdx dc.n0 d) (hne : idx ≠ []) (hτ : ∀ τ ∈ intervals, 1 ≤ τ ∧ τ ≤ dc.n1)
    (hord : intervals.Pairwise (· ≤ ·)) (hts : 0 < ts.val * ss.val) (o : DispsOut K)
    (ho : getDisps id giga itemsize ts ss idx "multi-origin" limit (intervals.map fun τ : ℕ => (τ : ℤ)) dc = .ok o)
    (P r : ℕ) (hP : P ≤ o.nO.length) (a : K) (ha : 0 ≤ a) :
    ∃ v, modelVariance ((o.nO.take P).drop r) ((o.deltaT.take P).drop r) a = .ok v ∧
      ∃ (m : ℕ) (A : Matrix (Fin m) (Fin m) K), m = P - r ∧ populateCovariance v ((o.nO.take P).drop r) = .ok (rowsOf A) ∧
        (∀ i j, A i j = A j i) ∧ PSD A ∧ (0 < a → intervals.Pairwise (· < ·) → PD A) := by
  obtain ⟨h1, h2, h3, h4⟩ := C15_alignment id giga itemsize ts ss idx limit intervals dc hidx hτ hord o ho
  have hNI : o.nO.length ≤ intervals.length := by rw [h2, h3]; exact List.length_filter_le _ _
  -- entries
  have key : ∀ i (hi : i < o.nO.length) (hi' : i < o.deltaT.length) (hi'' : i < intervals.length), ∃ last : ℕ, intervals.getLast? = some last ∧
      o.nO[i] = ((idx.length * last : ℕ) : K) / (intervals[i] : K) ∧ o.deltaT[i] = (intervals[i] : K) * (ts.val * ss.val) := by
    intro i hi hi' hi''
    obtain ⟨τ, e1, e2, -, last, e4, e5⟩ := h4 i (by omega)
    rw [List.getElem?_eq_getElem hi''] at e1
    rw [List.getElem?_eq_getElem hi'] at e2
    rw [List.getElem?_eq_getElem hi] at e5
    obtain rfl := Option.some.inj e1
    refine ⟨last, e4, Option.some.inj e5, ?_⟩
    rw [Option.some.inj e2]
    cases ts <;> cases ss <;> simp [deltaTOf, PyNum.mul, PyNum.val] <;> ring
  set m := P - r with hm
  have hnl : ((o.nO.take P).drop r).length = m := by simp [hm, hP]
  have htl : ((o.deltaT.take P).drop r).length = m := by rw [List.length_drop, List.length_take, h1]; omega
  have idxlt : ∀ i : Fin m, r + i.val < o.nO.length := fun i => by have := i.isLt; omega
  let n : Fin m → K := fun i => o.nO[r + i.val]'(idxlt i)
  let t : Fin m → K := fun i => o.deltaT[r + i.val]'(by have := idxlt i; omega)
  have hnE : (o.nO.take P).drop r = List.ofFn n := by
    apply List.ext_getElem
    · rw [hnl]; simp
    · intro i h5 h6; simp [n]
  have htE : (o.deltaT.take P).drop r = List.ofFn t := by
    apply List.ext_getElem
    · rw [htl]; simp
    · intro i h5 h6; simp [t]
  have hτi : ∀ i (hi : i < intervals.length), (0 : K) < (intervals[i] : K) := fun i hi => by
    exact_mod_cast (hτ _ (List.getElem_mem hi)).1
  -- the common last interval
  by_cases hm0 : m = 0
  · have hA : ∃ A : Matrix (Fin m) (Fin m) K, True := ⟨0, trivial⟩
    have hn0 : (o.nO.take P).drop r = [] := List.length_eq_zero_iff.mp (by rw [hnl, hm0])
    have ht0 : (o.deltaT.take P).drop r = [] := List.length_eq_zero_iff.mp (by rw [htl, hm0])
    rw [hn0, ht0]
    refine ⟨[], by simp [modelVariance], m, 0, hm, ?_, fun i j => rfl, ?_, ?_⟩
    · rw [show rowsOf (0 : Matrix (Fin m) (Fin m) K) = [] from List.length_eq_zero_iff.mp (by simp [rowsOf, hm0])]; rfl
    · intro x; exact Finset.sum_nonneg fun i _ => absurd i.isLt (by omega)
    · intro _ _ x hx; exact absurd (funext fun i => absurd i.isLt (by omega)) hx
  obtain ⟨last, hlast, -, -⟩ := key r (by omega) (by omega) (by omega)
  have key' : ∀ i (hi : i < o.nO.length), o.nO[i] = ((idx.length * last : ℕ) : K) / (intervals[i]'(by omega) : K) ∧
      o.deltaT[i]'(by omega) = (intervals[i]'(by omega) : K) * (ts.val * ss.val) := by
    intro i hi
    obtain ⟨l, e1, e2, e3⟩ := key i hi (by omega) (by omega)
    rw [hlast] at e1
    obtain rfl := Option.some.inj e1
    exact ⟨e2, e3⟩
  have hlast1 : 1 ≤ last := (hτ _ (List.mem_of_mem_getLast? hlast)).1
  have hidx0 : 0 < idx.length := List.length_pos_iff.mpr hne
  have hcp : (0 : K) < ((idx.length * last : ℕ) : K) := by exact_mod_cast Nat.mul_pos hidx0 hlast1
  have hn : ∀ i, 0 < n i := by
    intro i
    show 0 < o.nO[r + i.val]
    rw [(key' _ (idxlt i)).1]
    exact div_pos hcp (hτi _ _)
  have hc : ∀ i, n i * t i = ((idx.length * last : ℕ) : K) * (ts.val * ss.val) := by
    intro i
    show o.nO[r + i.val] * o.deltaT[r + i.val] = _
    rw [(key' _ (idxlt i)).1, (key' _ (idxlt i)).2]
    have := (hτi (r + i.val) (by have := idxlt i; omega)).ne'
    field_simp
  have htm : ∀ i j : Fin m, i ≤ j → t i ≤ t j := by
    intro i j hij
    show o.deltaT[r + i.val] ≤ o.deltaT[r + j.val]
    rw [(key' _ (idxlt i)).2, (key' _ (idxlt j)).2]
    apply mul_le_mul_of_nonneg_right _ hts.le
    rcases hij.lt_or_eq with h | h
    · have := List.pairwise_iff_getElem.mp hord (r + i.val) (r + j.val) (by have := idxlt i; omega) (by have := idxlt j; omega)
        (by have : i.val < j.val := h; omega)
      exact_mod_cast this
    · subst h; exact le_refl _
  obtain ⟨e1, A, e2, e3, e4, e5⟩ := model_cov n t a _ hn hc (mul_pos hcp hts).le ha htm
  rw [hnE, htE]
  refine ⟨_, e1, m, A, hm, e2, e3, e4, ?_⟩
  intro ha' hst
  refine e5 ha' (mul_pos hcp hts) ?_
  intro i j hij
  show o.deltaT[r + i.val] < o.deltaT[r + j.val]
  rw [(key' _ (idxlt i)).2, (key' _ (idxlt j)).2]
  apply mul_lt_mul_of_pos_right _ hts
  have := List.pairwise_iff_getElem.mp hst (r + i.val) (r + j.val) (by have := idxlt i; omega) (by have := idxlt j; omega)
    (by have : i.val < j.val := hij; omega)
  exact_mod_cast this

/-- Two atoms, four displacement frames, intervals 1 and 2, start at the second: a `1 × 1` matrix `a / n_o * dt²` with `n_o = 2`, `dt = 2`. -/
example : (getDisps id (1 / 1000000000) 8 (.int 1 : PyNum ℚ) (.int 1) [0, 1] "multi-origin" 8 [1, 2]
      ⟨2, 4, fun i k _ => (i : ℚ) + (k : ℚ) ^ 2⟩).toOption.map (fun o => (o.nO, o.deltaT)) = some ([4, 2], [1, 2]) ∧
    (modelVariance [(2 : ℚ)] [2] 3).toOption = some [some 6] := by decide +kernel

/-! ## C43 -/

theorem mulVec_diag_sqNorm {m : ℕ} (V : Matrix (Fin m) (Fin m) K) (hV : V.transpose * V = 1) (d : Fin m → K) (x : Fin m → K) :
    sqNorm ((V * Matrix.diagonal d * V.transpose).mulVec x) = ∑ k, d k ^ 2 * (V.transpose.mulVec x k) ^ 2 := by
  have iso : ∀ y : Fin m → K, sqNorm (V.mulVec y) = sqNorm y := by
    intro y
    have h : dotProduct (V.mulVec y) (V.mulVec y) = dotProduct y y := by
      rw [Matrix.dotProduct_mulVec, ← Matrix.mulVec_transpose, Matrix.mulVec_mulVec, hV, Matrix.one_mulVec]
    unfold sqNorm
    simpa [dotProduct, sq] using h
  rw [← Matrix.mulVec_mulVec, ← Matrix.mulVec_mulVec, iso]
  unfold sqNorm
  apply Finset.sum_congr rfl
  intro k _
  rw [Matrix.mulVec_diagonal]
  ring

theorem transpose_iso {m : ℕ} (V : Matrix (Fin m) (Fin m) K) (hV : V.transpose * V = 1) (x : Fin m → K) :
    ∑ k, (V.transpose.mulVec x k) ^ 2 = sqNorm x := by
  have hV' : V * V.transpose = 1 := mul_eq_one_comm.mp hV
  have h : dotProduct (V.transpose.mulVec x) (V.transpose.mulVec x) = dotProduct x x := by
    rw [Matrix.dotProduct_mulVec, Matrix.vecMul_transpose, Matrix.mulVec_mulVec, hV', Matrix.one_mulVec]
  unfold sqNorm
  simpa [dotProduct, sq] using h

/-- **C43, what holds.** For a symmetric matrix (spectral decomposition `ev`, `V` in any order) the result is symmetric.  If the first
eigenvalue that `numpy.linalg.eig` returns is the largest and positive, the condition number is at most `cond_max`, and a matrix whose
eigenvalues are all at least `ev 0 / cond_max` is returned unchanged.  Missing: the bound for other orders of the eigenvalues, see `C43_violated`. -/
theorem C43_condition_partial {m : ℕ}
    (eig : Matrix (Fin (m + 1)) (Fin (m + 1)) K → PyM ((Fin (m + 1) → K) × Matrix (Fin (m + 1)) (Fin (m + 1)) K))
    (A : Matrix (Fin (m + 1)) (Fin (m + 1)) K) (ev : Fin (m + 1) → K) (V : Matrix (Fin (m + 1)) (Fin (m + 1)) K)
    (he : eig A = .ok (ev, V)) (hE : IsEig A ev V) (κ : K) (hκ : 1 ≤ κ) :
    ∃ B, minimumEigenvalueMethod eig A κ = .ok B ∧ (∀ i j, B i j = B j i) ∧
      (0 < ev 0 → (∀ k, ev k ≤ ev 0) → CondLE B κ) ∧ ((∀ k, ev 0 / κ ≤ ev k) → B = A) := by
  obtain ⟨hV, hA⟩ := hE
  have hκ0 : 0 < κ := lt_of_lt_of_le one_pos hκ
  refine ⟨V * Matrix.diagonal (clippedEigenvalues ev κ) * V.transpose, ?_, ?_, ?_, ?_⟩
  · unfold minimumEigenvalueMethod
    rw [he]
    simp only
    rw [if_neg hκ0.ne']
  · intro i j
    have : (V * Matrix.diagonal (clippedEigenvalues ev κ) * V.transpose).transpose =
        V * Matrix.diagonal (clippedEigenvalues ev κ) * V.transpose := by
      rw [Matrix.transpose_mul, Matrix.transpose_mul, Matrix.transpose_transpose, Matrix.diagonal_transpose, Matrix.mul_assoc]
    exact (congrFun (congrFun this j) i)
  · intro h0 hmax
    have hT : 0 < ev 0 / κ := div_pos h0 hκ0
    refine ⟨ev 0 / κ, ev 0, hT, h0.le, by rw [mul_div_cancel₀ _ hκ0.ne'], ?_⟩
    intro x
    have hb : ∀ k, ev 0 / κ ≤ clippedEigenvalues ev κ k ∧ clippedEigenvalues ev κ k ≤ ev 0 := by
      intro k
      unfold clippedEigenvalues
      split_ifs with h
      · exact ⟨le_refl _, div_le_self h0.le hκ⟩
      · exact ⟨not_lt.mp h, hmax k⟩
    rw [mulVec_diag_sqNorm V hV, ← transpose_iso V hV x, Finset.mul_sum, Finset.mul_sum]
    constructor
    · apply Finset.sum_le_sum
      intro k _
      apply mul_le_mul_of_nonneg_right _ (sq_nonneg _)
      exact pow_le_pow_left₀ hT.le (hb k).1 2
    · apply Finset.sum_le_sum
      intro k _
      apply mul_le_mul_of_nonneg_right _ (sq_nonneg _)
      exact pow_le_pow_left₀ (hT.le.trans (hb k).1) (hb k).2 2
  · intro h
    rw [hA]
    congr 3
    funext k
    unfold clippedEigenvalues
    rw [if_neg (not_lt.mpr (h k))]

/-- Covariance matrix for variances 10, 17 and `n_o` 6, 5. -/
def exCov : Matrix (Fin 2) (Fin 2) ℚ := ![![10, 12], ![12, 17]]
/-- Its eigenvectors (columns), with the eigenvalues 1 and 26. -/
def exVec : Matrix (Fin 2) (Fin 2) ℚ := ![![4 / 5, 3 / 5], ![-3 / 5, 4 / 5]]

theorem exCov_isEig : IsEig exCov ![1, 26] exVec := by
  constructor <;> (ext i j; fin_cases i <;> fin_cases j <;> decide +kernel)

/-- **C43 is violated** when the smallest eigenvalue comes first, as LAPACK returns them for this matrix: with `cond_max = 2` the matrix is returned
unchanged, with condition number 26. -/
theorem C43_violated : populateCovariance [some 10, some 17] [6, 5] = .ok (rowsOf exCov) ∧
    ∃ (eig : Matrix (Fin 2) (Fin 2) ℚ → PyM ((Fin 2 → ℚ) × Matrix (Fin 2) (Fin 2) ℚ)) (ev : Fin 2 → ℚ) (V B : Matrix (Fin 2) (Fin 2) ℚ),
      eig exCov = .ok (ev, V) ∧ IsEig exCov ev V ∧ minimumEigenvalueMethod (m := 1) eig exCov 2 = .ok B ∧ ¬ CondLE B 2 := by
  refine ⟨by decide +kernel, fun _ => .ok (![1, 26], exVec), ![1, 26], exVec, exCov, rfl, exCov_isEig, ?_, ?_⟩
  · obtain ⟨B, h1, -, -, h4⟩ := C43_condition_partial (m := 1) (fun _ => .ok (![1, 26], exVec)) exCov ![1, 26] exVec rfl exCov_isEig 2 (by norm_num)
    rw [h1, h4]
    intro k
    fin_cases k <;> norm_num
  · rintro ⟨lo, hi, h1, h2, h3, h4⟩
    have a1 := (h4 ![4, -3]).1
    have a2 := (h4 ![3, 4]).2
    simp only [sqNorm, Matrix.mulVec, dotProduct, Fin.sum_univ_two, exCov, Matrix.cons_val_zero, Matrix.cons_val_one] at a1 a2
    have b1 : lo ^ 2 ≤ 1 := by nlinarith
    have b2 : 676 ≤ hi ^ 2 := by nlinarith
    nlinarith

/-- The same matrix with the largest eigenvalue first meets the hypotheses of the partial theorem. -/
example : IsEig exCov ![26, 1] ![![3 / 5, 4 / 5], ![4 / 5, -3 / 5]] ∧ ∀ k, (![26, 1] : Fin 2 → ℚ) k ≤ ![26, 1] 0 := by
  constructor
  · constructor <;>
      (ext i j; fin_cases i <;> fin_cases j <;> decide +kernel)
  · intro k; fin_cases k <;> norm_num

end Kinisi
