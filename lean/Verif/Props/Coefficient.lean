import Verif.Props.Conditioning
import Verif.Spec.Coefficient
import Mathlib.Algebra.Order.BigOperators.Ring.Finset
import Mathlib.Tactic.LinearCombination
import Mathlib.Data.List.GetD

/-!
# C155: which intervals decide on the size of the error bar

The random walk model has one free coefficient, fitted to the variances of all intervals without weights.
-/

set_option linter.unusedSectionVars false
set_option linter.unusedVariables false

namespace Kinisi
open Spec
variable {K : Type} [Field K] [LinearOrder K] [IsStrictOrderedRing K] [FloorRing K] {G : Type}

/-- The variance per squared time and number of observations of interval `r + i`: the coefficient that this interval alone would give. -/
def ownCoefficient (b : Boot K) (r i : ℕ) : K := (b.v.getD (r + i) none).getD 0 * b.nO.getD (r + i) 0 / timesFrom b r i ^ 2

theorem misfit_min {m : ℕ} {y w : ℕ → K} {α : K} (hw : 0 < ∑ i ∈ Finset.range m, w i ^ 2) (h0 : 0 ≤ α)
    (h : ∀ β, 0 ≤ β → ∑ i ∈ Finset.range m, (y i - α * w i) ^ 2 ≤ ∑ i ∈ Finset.range m, (y i - β * w i) ^ 2) :
    α = max 0 ((∑ i ∈ Finset.range m, y i * w i) / ∑ i ∈ Finset.range m, w i ^ 2) := by
  have hexp : ∀ β, ∑ i ∈ Finset.range m, (y i - β * w i) ^ 2 = ∑ i ∈ Finset.range m, y i ^ 2 - 2 * β * ∑ i ∈ Finset.range m, y i * w i + β ^ 2 * ∑ i ∈ Finset.range m, w i ^ 2 := by
    intro β
    rw [Finset.mul_sum, Finset.mul_sum, ← Finset.sum_sub_distrib, ← Finset.sum_add_distrib]
    exact Finset.sum_congr rfl fun i _ => by ring
  set S := ∑ i ∈ Finset.range m, w i ^ 2
  set B := ∑ i ∈ Finset.range m, y i * w i
  have hB : B = B / S * S := (div_mul_cancel₀ _ hw.ne').symm
  set q := B / S
  have key := h (max 0 q) (le_max_left _ _)
  rw [hexp, hexp, hB] at key
  rcases le_total q 0 with hq | hq
  · rw [max_eq_left hq] at key ⊢
    by_contra hne
    have ha : 0 < α := lt_of_le_of_ne h0 (Ne.symm hne)
    have h1 : 0 < α ^ 2 * S := mul_pos (pow_pos ha 2) hw
    have h2 : 0 ≤ α * ((-q) * S) := mul_nonneg ha.le (mul_nonneg (by linarith) hw.le)
    nlinarith
  · rw [max_eq_right hq] at key ⊢
    have h1 : (α - q) ^ 2 * S ≤ 0 := by nlinarith
    have h2 : (α - q) ^ 2 = 0 := le_antisymm (by
      by_contra hc
      exact absurd h1 (not_le.2 (mul_pos (not_le.1 hc) hw))) (sq_nonneg _)
    exact sub_eq_zero.1 (pow_eq_zero_iff (two_ne_zero) |>.1 h2)

/-- What `curve_fit` returns for the intervals from `r` on. -/
theorem fitted_coefficient {L : GlsLib K} (hL : LeastSquares L) {b : Boot K} (hb : InverseCounts b ∧ Aligned b) (hv : b.v.length = b.n.length) {r : ℕ} (hr : r < b.n.length) {α : K}
    (h2 : L.curveFit (b.nO.drop r) (b.dt.drop r) (b.v.drop r) = .ok α) :
    α = max 0 (weightedMean (fun i => timesFrom b r i ^ 6) (ownCoefficient b r) (b.n.length - r)) := by
  obtain ⟨h0, y, hy, hmin⟩ := hL _ _ _ _ h2
  obtain ⟨⟨⟨κ, hκ⟩, hpos, hcnt⟩, l1, l2, l3⟩ := hb
  have hyl : y.length = b.n.length - r := by
    have := congrArg List.length hy
    rw [List.length_drop, List.length_map] at this
    omega
  have hT : ∀ i < b.n.length - r, 0 < timesFrom b r i := fun i hi => by
    unfold timesFrom
    rw [List.getD_eq_getElem _ _ (by omega)]
    exact hpos _ (List.getElem_mem _)
  have hN : ∀ i < b.n.length - r, 0 < b.nO.getD (r + i) 0 ∧ b.nO.getD (r + i) 0 * timesFrom b r i = κ := fun i hi => by
    unfold timesFrom
    rw [List.getD_eq_getElem _ _ (by omega), List.getD_eq_getElem _ _ (by omega)]
    exact ⟨hcnt _ (List.getElem_mem _), hκ (r + i) _ _ (List.getElem?_eq_getElem _) (List.getElem?_eq_getElem _)⟩
  have hY : ∀ i < b.n.length - r, y.getD i 0 = (b.v.getD (r + i) none).getD 0 := fun i hi => by
    have e : (b.v.drop r)[i]? = (y.map some)[i]? := by rw [hy]
    have hi' : i < y.length := by omega
    rw [List.getElem?_drop, List.getElem?_map, List.getElem?_eq_getElem hi'] at e
    rw [List.getD_eq_getElem?_getD, List.getD_eq_getElem?_getD, e, List.getElem?_eq_getElem hi']
    rfl
  have hκ0 : 0 < κ := by
    rw [← (hN 0 (by omega)).2]
    exact mul_pos (hN 0 (by omega)).1 (hT 0 (by omega))
  have hmis : ∀ β, varianceMisfit (b.nO.drop r) (b.dt.drop r) y β = ∑ i ∈ Finset.range (b.n.length - r), (y.getD i 0 - β * (timesFrom b r i ^ 3 / κ)) ^ 2 := by
    intro β
    unfold varianceMisfit
    rw [hyl]
    refine Finset.sum_congr rfl fun i hi => ?_
    have hi' := Finset.mem_range.1 hi
    have e1 : (b.nO.drop r).getD i 0 = b.nO.getD (r + i) 0 := by simp only [List.getD_eq_getElem?_getD, List.getElem?_drop]
    have e2 : (b.dt.drop r).getD i 0 = timesFrom b r i := by simp only [timesFrom, List.getD_eq_getElem?_getD, List.getElem?_drop]
    rw [e1, e2]
    congr 2
    rw [← (hN i hi').2]
    have := (hN i hi').1.ne'
    have := (hT i hi').ne'
    field_simp
  have hw : 0 < ∑ i ∈ Finset.range (b.n.length - r), (timesFrom b r i ^ 3 / κ) ^ 2 :=
    Finset.sum_pos (fun i hi => pow_pos (div_pos (pow_pos (hT i (Finset.mem_range.1 hi)) 3) hκ0) 2) ⟨0, Finset.mem_range.2 (by omega)⟩
  rw [misfit_min hw h0 fun β hβ => by rw [← hmis, ← hmis]; exact hmin β hβ]
  congr 1
  unfold weightedMean
  have e1 : ∑ i ∈ Finset.range (b.n.length - r), (timesFrom b r i ^ 3 / κ) ^ 2 = (∑ i ∈ Finset.range (b.n.length - r), timesFrom b r i ^ 6) / κ ^ 2 := by
    rw [Finset.sum_div]
    exact Finset.sum_congr rfl fun i _ => by rw [div_pow]; ring
  have e2 : ∑ i ∈ Finset.range (b.n.length - r), y.getD i 0 * (timesFrom b r i ^ 3 / κ) = (∑ i ∈ Finset.range (b.n.length - r), timesFrom b r i ^ 6 * ownCoefficient b r i) / κ ^ 2 := by
    rw [Finset.sum_div]
    refine Finset.sum_congr rfl fun i hi => ?_
    have hi' := Finset.mem_range.1 hi
    unfold ownCoefficient
    rw [hY i hi', ← (hN i hi').2]
    have := (hN i hi').1.ne'
    have := (hT i hi').ne'
    field_simp
  rw [e1, e2, div_div_div_cancel_right₀ (pow_pos hκ0 2).ne']

/-- **C155, coefficient.** A fit with the random walk model, the numbers of observations inversely proportional to the times, and `curve_fit` as documented.  The fitted coefficient is the mean of the coefficients that the fitted intervals would give by
themselves, weighted with the sixth power of the time (and 0 if that mean should be negative). -/
theorem C155_coefficient {L : GlsLib K} {a : GlsArgs K} {b b' : Boot K} (h : bootstrapGLS L a b = (b', .ok ())) (hm : a.model = true) (hL : LeastSquares L) (hb : InverseCounts b ∧ Aligned b) (hv : b.v.length = b.n.length) :
    ∃ r : ℕ, diffRegime b.dt a.startDt = .ok r ∧ r < b.n.length ∧
      b'.popt = some (max 0 (weightedMean (fun i => timesFrom b r i ^ 6) (ownCoefficient b r) (b.n.length - r))) := by
  obtain ⟨r, α, h1, h2, h3⟩ := bootstrapGLS_coefficient h hm
  obtain ⟨l1, l2, l3⟩ := hb.2
  obtain ⟨q1, -, -⟩ := diffRegime_ok_iff.1 h1
  have hr : r < b.n.length := by omega
  refine ⟨r, h1, hr, ?_⟩
  rw [h3, fitted_coefficient hL hb hv hr h2]

/-- **C155, positive.** If no variance is negative (C32), the fitted coefficient is positive exactly if one of the fitted intervals has a positive variance.  Otherwise it is zero, and so is the whole model of the variances. -/
theorem C155_positive {L : GlsLib K} {a : GlsArgs K} {b b' : Boot K} (h : bootstrapGLS L a b = (b', .ok ())) (hm : a.model = true) (hL : LeastSquares L) (hb : InverseCounts b ∧ Aligned b) (hv : b.v.length = b.n.length)
    (hnn : ∀ (i : ℕ) (x : K), b.v[i]? = some (some x) → 0 ≤ x) :
    ∃ (r : ℕ) (α : K), diffRegime b.dt a.startDt = .ok r ∧ b'.popt = some α ∧ 0 ≤ α ∧ (0 < α ↔ ∃ (i : ℕ) (x : K), r ≤ i ∧ b.v[i]? = some (some x) ∧ 0 < x) := by
  obtain ⟨r, h1, h2, h3⟩ := C155_coefficient h hm hL hb hv
  obtain ⟨⟨-, hpos, hcnt⟩, l1, l2, l3⟩ := hb
  have hT : ∀ i < b.n.length - r, 0 < timesFrom b r i := fun i hi => by
    unfold timesFrom
    rw [List.getD_eq_getElem _ _ (by omega)]
    exact hpos _ (List.getElem_mem _)
  have hN : ∀ i < b.n.length - r, 0 < b.nO.getD (r + i) 0 := fun i hi => by
    rw [List.getD_eq_getElem _ _ (by omega)]
    exact hcnt _ (List.getElem_mem _)
  have hV : ∀ i, 0 ≤ (b.v.getD i none).getD 0 := by
    intro i
    rw [List.getD_eq_getElem?_getD]
    cases e : b.v[i]? with
    | none => exact le_rfl
    | some y =>
      cases y with
      | none => exact le_rfl
      | some x => exact hnn i x e
  have hC : ∀ i < b.n.length - r, 0 ≤ timesFrom b r i ^ 6 * ownCoefficient b r i := fun i hi =>
    mul_nonneg (pow_pos (hT i hi) 6).le (div_nonneg (mul_nonneg (hV _) (hN i hi).le) (sq_nonneg _))
  have hW : 0 < ∑ i ∈ Finset.range (b.n.length - r), timesFrom b r i ^ 6 :=
    Finset.sum_pos (fun i hi => pow_pos (hT i (Finset.mem_range.1 hi)) 6) ⟨0, Finset.mem_range.2 (by omega)⟩
  refine ⟨r, _, h1, h3, le_max_left _ _, ?_⟩
  rw [lt_max_iff, or_iff_right (lt_irrefl _)]
  unfold weightedMean
  rw [div_pos_iff_of_pos_right hW, Finset.sum_pos_iff_of_nonneg fun i hi => hC i (Finset.mem_range.1 hi)]
  constructor
  · rintro ⟨i, hi, hp⟩
    have hx : 0 < (b.v.getD (r + i) none).getD 0 := by
      refine lt_of_le_of_ne (hV _) fun e => ?_
      unfold ownCoefficient at hp
      rw [← e, zero_mul, zero_div, mul_zero] at hp
      exact lt_irrefl _ hp
    rw [List.getD_eq_getElem?_getD] at hx
    cases e : b.v[r + i]? with
    | none => rw [e] at hx; exact absurd hx (lt_irrefl _)
    | some y =>
      cases y with
      | none => rw [e] at hx; exact absurd hx (lt_irrefl _)
      | some x => rw [e] at hx; exact ⟨r + i, x, by omega, e, hx⟩
  · rintro ⟨i, x, hi, e, hx⟩
    have hl := (List.getElem?_eq_some_iff.1 e).1
    obtain ⟨j, rfl⟩ := Nat.exists_eq_add_of_le hi
    refine ⟨j, Finset.mem_range.2 (by omega), mul_pos (pow_pos (hT j (by omega)) 6) (div_pos (mul_pos ?_ (hN j (by omega))) (pow_pos (hT j (by omega)) 2))⟩
    rw [List.getD_eq_getElem?_getD, e]
    exact hx

theorem seven_le (n : ℕ) : 7 * ∑ i ∈ Finset.range n, ((i : K) + 1) ^ 6 ≤ ((n : K) + 1) ^ 7 - 1 ∧ (n : K) ^ 7 ≤ 7 * ∑ i ∈ Finset.range n, ((i : K) + 1) ^ 6 := by
  induction n with
  | zero => simp
  | succ n ih =>
    rw [Finset.sum_range_succ, mul_add]
    push_cast
    have hn : (0 : K) ≤ n := Nat.cast_nonneg n
    constructor
    · have : 0 ≤ ((n : K) + 1 + 1) ^ 7 - ((n : K) + 1) ^ 7 - 7 * ((n : K) + 1) ^ 6 := by
        ring_nf
        positivity
      linarith [ih.1]
    · have : 0 ≤ (n : K) ^ 7 + 7 * ((n : K) + 1) ^ 6 - ((n : K) + 1) ^ 7 := by
        ring_nf
        positivity
      linarith [ih.2]

/-- **C155, share.** Of the first `n` intervals of a trajectory (times `u, 2 u, …, n u`), fitted from position `r` on, those before position `q` have together at most the share `((q + 1) / n)⁷` of the weight: 9/1000 for the first half of 100 intervals,
less than a half for the first 89 of them. -/
theorem C155_share {b : Boot K} {u : K} (hu : 0 < u) (hb : b.dt.length = b.n.length) (ht : ∀ i < b.n.length, b.dt[i]? = some (((i : K) + 1) * u)) (r q : ℕ) (hrq : r ≤ q) (hq : q < b.n.length) :
    (∑ i ∈ Finset.range (q - r), timesFrom b r i ^ 6) / ∑ i ∈ Finset.range (b.n.length - r), timesFrom b r i ^ 6 ≤ (((q : K) + 1) / b.n.length) ^ 7 := by
  have hn0 : (0 : K) < b.n.length := Nat.cast_pos.2 (by omega)
  have hsum : ∀ p, r ≤ p → p ≤ b.n.length → ∑ i ∈ Finset.range (p - r), timesFrom b r i ^ 6 = u ^ 6 * (∑ i ∈ Finset.range p, ((i : K) + 1) ^ 6 - ∑ i ∈ Finset.range r, ((i : K) + 1) ^ 6) := by
    intro p hp hp'
    obtain ⟨d, rfl⟩ := Nat.exists_eq_add_of_le hp
    rw [Nat.add_sub_cancel_left, Finset.sum_range_add, add_sub_cancel_left, Finset.mul_sum]
    refine Finset.sum_congr rfl fun i hi => ?_
    have hi' := Finset.mem_range.1 hi
    unfold timesFrom
    rw [List.getD_eq_getElem?_getD, ht (r + i) (by omega), Option.getD_some]
    push_cast
    ring
  rw [hsum q hrq hq.le, hsum b.n.length (by omega) le_rfl]
  have mono : ∀ p p' : ℕ, p ≤ p' → ∑ i ∈ Finset.range p, ((i : K) + 1) ^ 6 ≤ ∑ i ∈ Finset.range p', ((i : K) + 1) ^ 6 := fun p p' h =>
    Finset.sum_le_sum_of_subset_of_nonneg (Finset.range_mono h) fun i _ _ => by positivity
  have strict : ∑ i ∈ Finset.range q, ((i : K) + 1) ^ 6 < ∑ i ∈ Finset.range b.n.length, ((i : K) + 1) ^ 6 :=
    lt_of_lt_of_le (by rw [Finset.sum_range_succ]; have : (0 : K) < ((q : K) + 1) ^ 6 := by positivity
                       linarith) (mono (q + 1) b.n.length hq)
  have hr0 : 0 ≤ ∑ i ∈ Finset.range r, ((i : K) + 1) ^ 6 := Finset.sum_nonneg fun i _ => by positivity
  have hrq' := mono r q hrq
  obtain ⟨u1, -⟩ := seven_le (K := K) q
  obtain ⟨-, u2⟩ := seven_le (K := K) b.n.length
  set A := ∑ i ∈ Finset.range r, ((i : K) + 1) ^ 6
  set Q := ∑ i ∈ Finset.range q, ((i : K) + 1) ^ 6
  set N := ∑ i ∈ Finset.range b.n.length, ((i : K) + 1) ^ 6
  have hu6 : (0 : K) < u ^ 6 := pow_pos hu 6
  rw [mul_div_mul_left _ _ hu6.ne']
  have hNp : 0 < N := by linarith
  have s1 : (Q - A) / (N - A) ≤ Q / N := by
    rw [div_le_div_iff₀ (by linarith) hNp]
    nlinarith
  have hn7 : (0 : K) < (b.n.length : K) ^ 7 := pow_pos hn0 7
  refine s1.trans ?_
  rw [div_pow, div_le_div_iff₀ hNp hn7]
  have hQ0 : 0 ≤ Q := le_trans hr0 hrq'
  have a1 : Q * (b.n.length : K) ^ 7 ≤ Q * (7 * N) := mul_le_mul_of_nonneg_left u2 hQ0
  have a2 : (7 * Q) * N ≤ ((q : K) + 1) ^ 7 * N := mul_le_mul_of_nonneg_right (by linarith) hNp.le
  linarith

/-- **C155, error bars.** Two fits with the random walk model of data with the same times `u, 2 u, …, n u` and the same numbers of observations; the variances differ only before position `q`, the coefficients of these intervals by at most `R`.  Then the fitted coefficients, and with them all
variances of the model up to a common factor, differ by at most `R ((q + 1) / n)⁷`: the intervals with the most observations hardly count. -/
theorem C155_early {L L' : GlsLib K} {a a' : GlsArgs K} {b b₁ b₂ b₃ : Boot K} (h : bootstrapGLS L a b = (b₁, .ok ())) (h' : bootstrapGLS L' a' b₂ = (b₃, .ok ())) (hm : a.model = true) (hm' : a'.model = true) (hs : a'.startDt = a.startDt)
    (hL : LeastSquares L) (hL' : LeastSquares L') (hb : InverseCounts b ∧ Aligned b) (hb' : InverseCounts b₂ ∧ Aligned b₂) (hv : b.v.length = b.n.length) (hv' : b₂.v.length = b₂.n.length) (hdt : b₂.dt = b.dt) (hnO : b₂.nO = b.nO)
    {u : K} (hu : 0 < u) (ht : ∀ i < b.n.length, b.dt[i]? = some (((i : K) + 1) * u)) (q : ℕ) (hq : q < b.n.length) (R : K)
    (hlate : ∀ i, q ≤ i → b₂.v[i]? = b.v[i]?)
    (hR : ∀ i < q, |ownCoefficient b₂ 0 i - ownCoefficient b 0 i| ≤ R) (hR0 : 0 ≤ R) :
    ∃ α α', b₁.popt = some α ∧ b₃.popt = some α' ∧ |α' - α| ≤ R * (((q : K) + 1) / b.n.length) ^ 7 := by
  obtain ⟨r, r1, r2, r3⟩ := C155_coefficient h hm hL hb hv
  obtain ⟨r', r1', r2', r3'⟩ := C155_coefficient h' hm' hL' hb' hv'
  rw [hdt, hs, r1] at r1'
  obtain rfl := Except.ok.inj r1'
  refine ⟨_, _, r3, r3', ?_⟩
  have hlen : b₂.n.length = b.n.length := by rw [← hb'.2.1, hdt, hb.2.1]
  have hT : timesFrom b₂ r = timesFrom b r := by unfold timesFrom; rw [hdt]
  rw [hlen, hT]
  have hpow : 0 ≤ (((q : K) + 1) / b.n.length) ^ 7 := by positivity
  have hown : ∀ (x : Boot K) i, ownCoefficient x r i = ownCoefficient x 0 (r + i) := by
    intro x i
    simp only [ownCoefficient, timesFrom, Nat.zero_add]
  have hsame : ∀ i, q ≤ r + i → ownCoefficient b₂ r i = ownCoefficient b r i := by
    intro i hi
    unfold ownCoefficient
    rw [hT, hnO]
    simp only [List.getD_eq_getElem?_getD, hlate _ hi]
  have hpos : ∀ i < b.n.length - r, 0 < timesFrom b r i ^ 6 := by
    intro i hi
    unfold timesFrom
    rw [List.getD_eq_getElem?_getD, ht (r + i) (by omega), Option.getD_some]
    positivity
  have hS : 0 < ∑ i ∈ Finset.range (b.n.length - r), timesFrom b r i ^ 6 := Finset.sum_pos (fun i hi => hpos i (Finset.mem_range.1 hi)) ⟨0, Finset.mem_range.2 (by omega)⟩
  have hlip : ∀ x y : K, |max 0 x - max 0 y| ≤ |x - y| := fun x y => by
    have := abs_max_sub_max_le_max 0 x 0 y
    simpa using this
  refine (hlip _ _).trans ?_
  unfold weightedMean
  rw [← sub_div, ← Finset.sum_sub_distrib, abs_div, abs_of_pos hS]
  rcases le_total q r with hqr | hqr
  · rw [Finset.sum_eq_zero fun i _ => by rw [hsame i (by omega), sub_self], abs_zero, zero_div]
    positivity
  · have hsplit : ∑ i ∈ Finset.range (b.n.length - r), (timesFrom b r i ^ 6 * ownCoefficient b₂ r i - timesFrom b r i ^ 6 * ownCoefficient b r i) =
        ∑ i ∈ Finset.range (q - r), timesFrom b r i ^ 6 * (ownCoefficient b₂ r i - ownCoefficient b r i) := by
      rw [← Finset.sum_subset (Finset.range_mono (show q - r ≤ b.n.length - r by omega))]
      · exact Finset.sum_congr rfl fun i _ => by ring
      · intro i hi hi'
        rw [Finset.mem_range] at hi hi'
        rw [hsame i (by omega), sub_self]
    have hbd : |∑ i ∈ Finset.range (q - r), timesFrom b r i ^ 6 * (ownCoefficient b₂ r i - ownCoefficient b r i)| ≤ R * ∑ i ∈ Finset.range (q - r), timesFrom b r i ^ 6 := by
      refine (Finset.abs_sum_le_sum_abs _ _).trans ?_
      rw [Finset.mul_sum]
      refine Finset.sum_le_sum fun i hi => ?_
      have hi' := Finset.mem_range.1 hi
      rw [abs_mul, abs_of_pos (hpos i (by omega)), mul_comm, hown, hown]
      exact mul_le_mul_of_nonneg_right (hR (r + i) (by omega)) (hpos i (by omega)).le
    rw [hsplit]
    calc _ ≤ R * (∑ i ∈ Finset.range (q - r), timesFrom b r i ^ 6) / ∑ i ∈ Finset.range (b.n.length - r), timesFrom b r i ^ 6 := div_le_div_of_nonneg_right hbd hS.le
      _ = R * ((∑ i ∈ Finset.range (q - r), timesFrom b r i ^ 6) / ∑ i ∈ Finset.range (b.n.length - r), timesFrom b r i ^ 6) := mul_div_assoc _ _ _
      _ ≤ _ := mul_le_mul_of_nonneg_left (C155_share hu hb.2.1 ht r q hqr hq) hR0

theorem filter_prefix {p : ℕ → Bool} (hp : ∀ i j, i ≤ j → p j = true → p i = true) (F : ℕ) : ∃ q ≤ F, (List.range F).filter p = List.range q := by
  induction F with
  | zero => exact ⟨0, le_rfl, rfl⟩
  | succ F ih =>
    rw [List.range_succ, List.filter_append]
    cases h : p F with
    | true =>
      refine ⟨F + 1, le_rfl, ?_⟩
      rw [List.filter_eq_self.2 fun i hi => hp i F (List.mem_range.1 hi).le h, List.range_succ]
      simp [h]
    | false =>
      obtain ⟨q, hq, e⟩ := ih
      exact ⟨q, by omega, by simp [e, h]⟩

theorem resolved_prefix (N F : ℕ) : ∃ q ≤ F, resolved N F ((List.range F).map fun i => i + 1) = (List.range q).map fun i => i + 1 := by
  obtain ⟨q, hq, e⟩ := filter_prefix (p := fun i => decide (2 ≤ N * (F / (i + 1)))) (by
    intro i j hij hj
    rw [decide_eq_true_eq] at hj ⊢
    exact hj.trans (Nat.mul_le_mul_left _ (Nat.div_le_div_left (by omega) (by omega)))) F
  refine ⟨q, hq, ?_⟩
  unfold resolved
  rw [List.filter_map, ← e]
  rfl

/-- **C155, trajectories.** A trajectory with at most `n_steps` frames, read with the default intervals: the analysed times are `u, 2 u, …` (`u` the time between frames), for each of the three analyses, the numbers of observations are inversely proportional to them, and each has a variance.  So the other statements
hold for its fits. -/
theorem C155_runs (E : Num K) (P : Params K) (S : Select K) (sy : List String) (atoms fw : List ℕ) (hS : Picks S sy atoms fw) (hP : DefaultGrid E P) (F : ℕ) (hF : 2 ≤ F) (hF' : (F : ℤ) ≤ P.nSteps) (C : ℕ → M3 K) (V : ℕ → K)
    (s x : ℕ → ℕ → V3 K) (hs : StoredIn F sy.length C s x) (base : PyM (Base K)) (unit : K) (hbase : ReadFrames E P S (cellFrames F sy C V s) (cellUniverse F sy C V s) base unit) (sq : K → K) (o : Oracle K G)
    (U : UncParams K) (hblock : U.opt.block = false) (hsub : U.sub = 1) (charge : Charge K) (hq : ∀ l, charge = .array l → l.length = atoms.length) (g₁ g₂ : G) (Z : Analyzer K)
    (h : diffusionAnalyzer sq o g₁ U base = .ok (Z, g₂) ∨ jumpAnalyzer sq o g₁ U base = .ok (Z, g₂) ∨ conductivityAnalyzer sq o g₁ U charge base = .ok (Z, g₂)) :
    (InverseCounts Z.diff ∧ Aligned Z.diff) ∧ Z.diff.v.length = Z.diff.n.length ∧ 0 < P.stepSkip.val * P.timeStep.val / unit ∧
      ∀ i < Z.diff.n.length, Z.diff.dt[i]? = some (((i : K) + 1) * (P.stepSkip.val * P.timeStep.val / unit)) := by
  obtain ⟨hal, hu, -⟩ := run_grid_range hS hP hF hs hbase hsub h
  have hv : Z.diff.v.length = Z.diff.n.length := by
    rcases h with h | h | h
    · obtain ⟨B, hB, -, m⟩ := diffusion_inv h
      obtain ⟨b0, q, -, -, i2, -, -⟩ := msdBootstrap_inv m
      rw [i2.lv, i2.ln]
    · obtain ⟨B, hB, -, m⟩ := jump_inv h
      obtain ⟨b0, q, -, -, i2, -, -⟩ := mstdBootstrap_inv m
      rw [i2.lv, i2.ln]
    · obtain ⟨B, hB, -, m⟩ := conductivity_inv h
      obtain ⟨b0, q, -, -, i2, -, -⟩ := mscdBootstrap_inv m
      rw [i2.lv, i2.ln]
  obtain ⟨q, hq1, hq2⟩ := resolved_prefix atoms.length F
  have hdt : ∃ p, Z.diff.dt = (List.range p).map fun i : ℕ => ((i : K) + 1) * (P.stepSkip.val * P.timeStep.val / unit) := by
    have conv : ∀ p, ((List.range p).map fun i => i + 1).map (fun τ : ℕ => (τ : K) * P.stepSkip.val * P.timeStep.val / unit) = (List.range p).map fun i : ℕ => ((i : K) + 1) * (P.stepSkip.val * P.timeStep.val / unit) := by
      intro p
      rw [List.map_map]
      refine List.map_congr_left fun i _ => ?_
      simp only [Function.comp_apply]
      push_cast
      ring
    rcases h with h | h | h
    · obtain ⟨taus, -, -, t3, -, -, t5⟩ := C101_msd E P S sy atoms fw hS hP F hF C V s x hs sq o U hblock hsub g₁ g₂ Z base unit hbase h
      rw [t3 hF', hq2, conv] at t5
      exact ⟨_, t5⟩
    · obtain ⟨taus, half, -, -, t3, -, rfl, -, t5⟩ := C101_mstd E P S sy atoms fw hS hP F hF C V s x hs sq o U hblock hsub g₁ g₂ Z base unit hbase h
      rw [t3 hF', hq2, ← List.map_take, List.take_range, conv] at t5
      exact ⟨_, t5⟩
    · obtain ⟨taus, half, -, -, t3, -, rfl, -, t5⟩ := C101_mscd E P S sy atoms fw hS hP F hF C V s x hs sq o U hblock hsub g₁ g₂ Z base unit hbase charge hq h
      rw [t3 hF', hq2, ← List.map_take, List.take_range, conv] at t5
      exact ⟨_, t5⟩
  refine ⟨hal, hv, hu, fun i hi => ?_⟩
  obtain ⟨p, hp⟩ := hdt
  have hl : p = Z.diff.n.length := by rw [← hal.2.1, hp, List.length_map, List.length_range]
  rw [hp, List.getElem?_map, List.getElem?_range (by omega)]
  rfl

/-! ## Examples -/

/-- The shares for 100 intervals: less than 9/1000 for the first half, less than a half for the first 89. -/
example : (((50 : ℚ) + 1) / 100) ^ 7 < 9 / 1000 ∧ (((89 : ℚ) + 1) / 100) ^ 7 < 1 / 2 := by norm_num

/-- `C155_runs` and `C155_share` for the four intervals of the trajectory of C139: the first two have at most the share (3/4)⁷ of the weight (in fact 65/4890). -/
example : ∃ Z : Analyzer ℚ, diffusionAnalyzer id (exOracle ℚ) () exUnc (exFineBase fun i j k => exIonPath exFine i j k / 10) = .ok (Z, ()) ∧
    (∑ i ∈ Finset.range (2 - 0), timesFrom Z.diff 0 i ^ 6) / ∑ i ∈ Finset.range (Z.diff.n.length - 0), timesFrom Z.diff 0 i ^ 6 ≤ (((2 : ℕ) + 1) / Z.diff.n.length) ^ 7 ∧ Z.diff.n.length = 4 := by
  obtain ⟨Z, h, n, -, t⟩ := exRun_values (x := diffusionAnalyzer id (exOracle ℚ) () exUnc (exFineBase fun i j k => exIonPath exFine i j k / 10))
    (y := [244428613 / 882000000, 38200339 / 41343750, 125593829 / 73500000, 250001 / 180000]) (n := [8, 4, 8 / 3, 2]) (t := [6, 12, 18, 24]) (by decide +kernel)
  have hl : Z.diff.n.length = 4 := by rw [n]; rfl
  obtain ⟨h1, -, h3, h4⟩ := C155_runs exNum exParams exIons ["Na", "O", "Cl"] [0, 2] [1] exIons_picks exGrid 4 (by decide) (by decide) _ _ _ (exIonPath exFine) (exIon_stored (by unfold HalfCell; decide +kernel)) _ 1 (.inl ⟨rfl, rfl⟩) id (exOracle ℚ)
    exUnc rfl rfl (.scalar 1) (fun l h => by cases h) () () Z (.inl h)
  exact ⟨Z, h, C155_share h3 h1.2.1 h4 0 2 (by omega) (by omega), hl⟩

/-- Least squares by the formula. -/
def exLeast (n t : List ℚ) (v : List (Option ℚ)) : PyM ℚ :=
  if v = (v.map fun x => x.getD 0).map some ∧ 0 < ∑ i ∈ Finset.range v.length, (t.getD i 0 ^ 2 / n.getD i 0) ^ 2 then
    .ok (max 0 ((∑ i ∈ Finset.range v.length, (v.map fun x => x.getD 0).getD i 0 * (t.getD i 0 ^ 2 / n.getD i 0)) / ∑ i ∈ Finset.range v.length, (t.getD i 0 ^ 2 / n.getD i 0) ^ 2))
  else .error .valueError

theorem exLeast_min {m : ℕ} {y w : ℕ → K} (hw : 0 < ∑ i ∈ Finset.range m, w i ^ 2) {β : K} (hβ : 0 ≤ β) :
    ∑ i ∈ Finset.range m, (y i - max 0 ((∑ i ∈ Finset.range m, y i * w i) / ∑ i ∈ Finset.range m, w i ^ 2) * w i) ^ 2 ≤ ∑ i ∈ Finset.range m, (y i - β * w i) ^ 2 := by
  have hexp : ∀ β, ∑ i ∈ Finset.range m, (y i - β * w i) ^ 2 = ∑ i ∈ Finset.range m, y i ^ 2 - 2 * β * ∑ i ∈ Finset.range m, y i * w i + β ^ 2 * ∑ i ∈ Finset.range m, w i ^ 2 := by
    intro β
    rw [Finset.mul_sum, Finset.mul_sum, ← Finset.sum_sub_distrib, ← Finset.sum_add_distrib]
    exact Finset.sum_congr rfl fun i _ => by ring
  rw [hexp, hexp]
  set S := ∑ i ∈ Finset.range m, w i ^ 2
  set B := ∑ i ∈ Finset.range m, y i * w i
  have hB : B = B / S * S := (div_mul_cancel₀ _ hw.ne').symm
  set q := B / S
  rw [hB]
  rcases le_total q 0 with hq | hq
  · rw [max_eq_left hq]
    have h1 : 0 ≤ β * ((-q) * S) := mul_nonneg hβ (mul_nonneg (by linarith) hw.le)
    have h2 : 0 ≤ β ^ 2 * S := mul_nonneg (sq_nonneg _) hw.le
    nlinarith
  · rw [max_eq_right hq]
    have h1 : 0 ≤ (β - q) ^ 2 * S := mul_nonneg (sq_nonneg _) hw.le
    nlinarith

/-- Routines for two intervals with the times 1, 2 and the counts 2, 1. -/
def exLsLib : GlsLib ℚ := { exModelLib with
  curveFit := exLeast
  eig := fun m A => match m, A with
    | 1, A => if A = A 0 0 • !![1, 2; 2, 8] then .ok (fun i => [A 0 0, 4 * A 0 0].getD i.val 0, !![1, 0; 2, 1]) else .error .linAlgError
    | _, _ => .error .linAlgError
  pinvh := fun m A => match m, A with
    | 2, A => if A = A 0 0 • !![1, 2; 2, 8] ∧ 0 < A 0 0 then .ok ((1 / A 0 0) • !![2, -1 / 2; -1 / 2, 1 / 4]) else .error .linAlgError
    | _, _ => .error .linAlgError }

theorem exLsLib_least : LeastSquares exLsLib := by
  intro n t v α h
  have h : exLeast n t v = .ok α := h
  unfold exLeast at h
  split_ifs at h with h0
  obtain ⟨h1, h2⟩ := h0
  obtain rfl := Except.ok.inj h
  refine ⟨le_max_left _ _, _, h1, fun β hβ => ?_⟩
  have e : ∀ γ, varianceMisfit n t (v.map fun x => x.getD 0) γ = ∑ i ∈ Finset.range v.length, ((v.map fun x => x.getD 0).getD i 0 - γ * (t.getD i 0 ^ 2 / n.getD i 0)) ^ 2 := by
    intro γ
    unfold varianceMisfit
    rw [List.length_map]
    refine Finset.sum_congr rfl fun i _ => ?_
    congr 2
    ring
  rw [e, e]
  exact exLeast_min h2 hβ

/-- Times 1, 2, numbers of observations 2, 1, variances `x` and 63/16. -/
def exLsBoot (x : ℚ) : Boot ℚ := { exModelBoot with v := [some x, some (63 / 16)] }

/-- `C155_coefficient` and `C155_early`: the coefficients of the two intervals are `2 x` and 63/64 and have the weights 1 and 64.  If the variance of the first interval is 67/2, the fitted coefficient is 2 and the model has the variance 1 there; if it is 1, the coefficient is 1. -/
example : ∃ b₁ b₃, bootstrapGLS exLsLib { exArgs 1 false with model := true } (exLsBoot (67 / 2)) = (b₁, .ok ()) ∧ bootstrapGLS exLsLib { exArgs 1 false with model := true } (exLsBoot 1) = (b₃, .ok ()) ∧
    b₁.popt = some 2 ∧ b₁.modelV = some [some 1, some 8] ∧ b₃.popt = some 1 ∧ (∃ α α', b₁.popt = some α ∧ b₃.popt = some α' ∧ |α' - α| ≤ 65 * (((1 : ℕ) + 1) / 2) ^ 7) := by
  have hI : ∀ x, InverseCounts (exLsBoot x) ∧ Aligned (exLsBoot x) := by
    intro x
    refine ⟨⟨⟨2, ?_⟩, show ∀ t ∈ ([1, 2] : List ℚ), 0 < t by decide +kernel, show ∀ t ∈ ([2, 1] : List ℚ), 0 < t by decide +kernel⟩, rfl, rfl, show ([1, 2] : List ℚ).Pairwise (· < ·) by decide +kernel⟩
    intro k t N h1 h2
    match k with
    | 0 => cases h1; cases h2; norm_num
    | 1 => cases h1; cases h2; norm_num
    | k + 2 => cases h1
  have o1 : (bootstrapGLS exLsLib { exArgs 1 false with model := true } (exLsBoot (67 / 2))).2.toOption = some () := by decide +kernel
  have o2 : (bootstrapGLS exLsLib { exArgs 1 false with model := true } (exLsBoot 1)).2.toOption = some () := by decide +kernel
  refine ⟨_, _, ok_of_outcome o1, ok_of_outcome o2, by decide +kernel, by decide +kernel, by decide +kernel, ?_⟩
  exact C155_early (ok_of_outcome o1) (ok_of_outcome o2) rfl rfl rfl exLsLib_least exLsLib_least (hI _) (hI _) rfl rfl rfl rfl one_pos
    (by
      intro i hi
      match i, hi with
      | 0, _ => decide +kernel
      | 1, _ => decide +kernel
      | i + 2, hi => exact absurd hi (by simp [exLsBoot, exModelBoot]))
    1 (by decide +kernel) 65
    (by
      intro i hi
      match i, hi with
      | i + 1, _ => rfl)
    (by decide +kernel) (by norm_num)

/-- `C155_positive` for the same fit. -/
example : ∃ b' r α, bootstrapGLS exLsLib { exArgs 1 false with model := true } (exLsBoot 1) = (b', .ok ()) ∧ diffRegime (exLsBoot 1).dt (exArgs 1 false).startDt = .ok r ∧ b'.popt = some α ∧
    (0 < α ↔ ∃ (i : ℕ) (x : ℚ), r ≤ i ∧ (exLsBoot 1).v[i]? = some (some x) ∧ 0 < x) := by
  have o : (bootstrapGLS exLsLib { exArgs 1 false with model := true } (exLsBoot 1)).2.toOption = some () := by decide +kernel
  obtain ⟨r, α, h1, h2, -, h3⟩ := C155_positive (ok_of_outcome o) rfl exLsLib_least (by
    refine ⟨⟨⟨2, ?_⟩, show ∀ t ∈ ([1, 2] : List ℚ), 0 < t by decide +kernel, show ∀ t ∈ ([2, 1] : List ℚ), 0 < t by decide +kernel⟩, rfl, rfl, show ([1, 2] : List ℚ).Pairwise (· < ·) by decide +kernel⟩
    intro k t N h1 h2
    match k with
    | 0 => cases h1; cases h2; norm_num
    | 1 => cases h1; cases h2; norm_num
    | k + 2 => cases h1) rfl (by
    intro i x hx
    have hm := List.mem_of_getElem? hx
    have : ∀ y ∈ (exLsBoot 1).v, ∀ x ∈ y, 0 ≤ x := by decide +kernel
    exact this _ hm x rfl)
  exact ⟨_, r, α, ok_of_outcome o, h1, h2, h3⟩

end Kinisi
