import Verif.Props.AnyAtoms
import Verif.Props.Axes

/-!
# C141: how errors of the curve carry over to the gradient
-/

set_option linter.unusedSectionVars false
set_option linter.unusedVariables false

namespace Kinisi
open Spec
variable {K : Type} [Field K] [LinearOrder K] [IsStrictOrderedRing K] [FloorRing K] {G : Type}

/-- The best line for all data: the gradient is that of `C134_intercept`, or zero if this is negative. -/
theorem best_line_clipped {m : ℕ} (v n t y : ℕ → K) (hn : ∀ i < m + 1, 0 < n i) (extra : List K) (A P : Matrix (Fin (m + 1)) (Fin (m + 1)) K)
    (hA : populateCovariance (List.ofFn fun i : Fin (m + 1) => some (v i)) ((List.ofFn fun i : Fin (m + 1) => n i) ++ extra) = .ok (rowsOf A)) (hP : A * P = 1)
    (logdet κ : K) (hκ : ∀ i < m + 1, n i * t i = κ) (ht : 0 < t 0) (hv : 0 < v 0) (hw : ∀ k < m, v k * n k ^ 2 < v (k + 1) * n (k + 1) ^ 2) (hne : ∃ k < m, n (k + 1) ≠ n k) (c : K)
    (hN : ∑ k ∈ Finset.range m, jump n (k + 1) * (jump (fun i => n i * y i) (k + 1) - c * jump n (k + 1)) / jump (fun i => v i * n i ^ 2) (k + 1) = 0)
    {g' c' best : K} (hb : BestLine (logLikelihood logdet P (fun i => t i) (fun i => y i)) g' c' best) : g' = max 0 ((y 0 - c) / t 0) := by
  rcases le_or_gt c (y 0) with hc | hc
  · rw [((C134_intercept v n t y hn extra A P hA hP logdet κ hκ ht hv hw c hc hN).2 hne g' c' best hb).1, max_eq_right (div_nonneg (sub_nonneg.2 hc) ht.le)]
  rw [max_eq_left (div_nonpos_of_nonpos_of_nonneg (by linarith) ht.le)]
  set W : ℕ → K := fun k => jump (fun i => v i * n i ^ 2) (k + 1) with hW
  have hWp : ∀ k < m, 0 < W k := fun k hk => sub_pos.2 (hw k hk)
  set S : K → K := fun c => ∑ k ∈ Finset.range m, (jump (fun i => n i * y i) (k + 1) - c * jump n (k + 1)) ^ 2 / W k with hS
  set T : K := ∑ k ∈ Finset.range m, jump n (k + 1) ^ 2 / W k with hT
  have hT0 : 0 ≤ T := Finset.sum_nonneg fun k hk => div_nonneg (sq_nonneg _) (hWp k (Finset.mem_range.1 hk)).le
  have hTp : 0 < T := by
    obtain ⟨k, hk, hne⟩ := hne
    refine Finset.sum_pos' (fun k hk => div_nonneg (sq_nonneg _) (hWp k (Finset.mem_range.1 hk)).le) ⟨k, Finset.mem_range.2 hk, ?_⟩
    exact div_pos (by have := sub_ne_zero.2 hne; show 0 < (n (k + 1) - n k) ^ 2; positivity) (hWp k hk)
  have hsplit : ∀ c', S c' = S c + (c' - c) ^ 2 * T := by
    intro c'
    have : S c' = S c + (c' - c) ^ 2 * T - 2 * (c' - c) *
        ∑ k ∈ Finset.range m, jump n (k + 1) * (jump (fun i => n i * y i) (k + 1) - c * jump n (k + 1)) / W k := by
      simp only [hS, hT, Finset.mul_sum, ← Finset.sum_add_distrib, ← Finset.sum_sub_distrib]
      refine Finset.sum_congr rfl fun k hk => ?_
      ring
    rw [this, hN]
    ring
  have hll : ∀ g c', 0 ≤ g → logLikelihood logdet P (fun i => t i) (fun i => y i) [g, c'] =
      some (-(1 / 2) * (logdet + ((y 0 - (g * t 0 + c')) ^ 2 / v 0 + (S c + (c' - c) ^ 2 * T)))) := by
    intro g c' hg
    rw [C134_likelihood v n t y hn extra A P hA hP logdet g hg]
    simp only [List.getD_cons_zero]
    rw [increments_const v n t y hn hκ, ← hsplit]
  have hneg : 0 ≤ g' := by
    by_contra hg
    have h := hb.1
    unfold logLikelihood at h
    rw [if_pos (by simpa using hg)] at h
    cases h
  by_contra hg0
  have hgp : 0 < g' := lt_of_le_of_ne hneg (Ne.symm hg0)
  obtain ⟨h1, h2⟩ := hb
  rw [hll _ _ hneg] at h1
  -- shrink both residuals by the same factor `s`, so that the gradient becomes zero
  have he : 0 < c - y 0 := by linarith
  have hgt : 0 < g' * t 0 := mul_pos hgp ht
  set s : K := (c - y 0) / (c - y 0 + g' * t 0) with hs
  have hden : 0 < c - y 0 + g' * t 0 := by linarith
  have hs0 : 0 < s := div_pos he hden
  have hs1 : s < 1 := (div_lt_one hden).2 (by linarith)
  have hse : s * (c - y 0 + g' * t 0) = c - y 0 := div_mul_cancel₀ _ hden.ne'
  have h3 := h2 0 (c + s * (c' - c)) _ (hll 0 _ le_rfl)
  rw [← Option.some.inj h1] at h3
  have e1 : y 0 - (0 * t 0 + (c + s * (c' - c))) = s * (y 0 - (g' * t 0 + c')) := by linear_combination hse
  have e2 : c + s * (c' - c) - c = s * (c' - c) := by ring
  rw [e1, e2] at h3
  have hX := div_nonneg (sq_nonneg (y 0 - (g' * t 0 + c'))) hv.le
  have hY := mul_nonneg (sq_nonneg (c' - c)) hT0
  have e3 : (s * (y 0 - (g' * t 0 + c'))) ^ 2 / v 0 = s ^ 2 * ((y 0 - (g' * t 0 + c')) ^ 2 / v 0) := by rw [mul_pow, mul_div_assoc]
  have e4 : (s * (c' - c)) ^ 2 * T = s ^ 2 * ((c' - c) ^ 2 * T) := by ring
  rw [e3, e4] at h3
  have hs2 : s ^ 2 < 1 := by nlinarith
  have h4 : (y 0 - (g' * t 0 + c')) ^ 2 / v 0 + (c' - c) ^ 2 * T ≤ s ^ 2 * ((y 0 - (g' * t 0 + c')) ^ 2 / v 0 + (c' - c) ^ 2 * T) := by linarith
  have h5 : (y 0 - (g' * t 0 + c')) ^ 2 / v 0 + (c' - c) ^ 2 * T ≤ 0 := by nlinarith
  have h6 : (c' - c) ^ 2 * T = 0 := by linarith
  have h7 : (y 0 - (g' * t 0 + c')) ^ 2 / v 0 = 0 := by linarith
  have h8 : c' = c := by
    rcases mul_eq_zero.1 h6 with h | h
    · exact sub_eq_zero.1 (pow_eq_zero_iff (two_ne_zero) |>.1 h)
    · exact absurd h hTp.ne'
  rcases div_eq_zero_iff.1 h7 with h | h
  · have := pow_eq_zero_iff (two_ne_zero) |>.1 h
    rw [h8] at this
    linarith
  · exact hv.ne' h

/-- Data within `R` of a line: the best line has a gradient within `(1 + q) R / t 0` of that of the line. -/
theorem line_error {m : ℕ} (v n t y : ℕ → K) (hn : ∀ i < m + 1, 0 < n i) (extra : List K) (A P : Matrix (Fin (m + 1)) (Fin (m + 1)) K)
    (hA : populateCovariance (List.ofFn fun i : Fin (m + 1) => some (v i)) ((List.ofFn fun i : Fin (m + 1) => n i) ++ extra) = .ok (rowsOf A)) (hP : A * P = 1)
    (logdet κ : K) (hκ : ∀ i < m + 1, n i * t i = κ) (ht : ∀ i < m + 1, 0 < t i) (hv : 0 < v 0) (hw : ∀ k < m, v k * n k ^ 2 < v (k + 1) * n (k + 1) ^ 2) (hne : ∃ k < m, t (k + 1) ≠ t k)
    (D c₀ R q : K) (hD : 0 ≤ D) (hR : ∀ i < m + 1, |y i - (D * t i + c₀)| ≤ R) (hq : ∀ k < m, t (k + 1) ≠ t k → t k + t (k + 1) ≤ q * |t (k + 1) - t k|)
    {g c best : K} (hb : BestLine (logLikelihood logdet P (fun i => t i) (fun i => y i)) g c best) : |g - D| ≤ (1 + q) * R / t 0 := by
  set W : ℕ → K := fun k => jump (fun i => v i * n i ^ 2) (k + 1) with hW
  have hWp : ∀ k < m, 0 < W k := fun k hk => sub_pos.2 (hw k hk)
  set T : K := ∑ k ∈ Finset.range m, jump n (k + 1) ^ 2 / W k with hT
  have hκ0 : 0 < κ := by rw [← hκ 0 (by omega)]; exact mul_pos (hn 0 (by omega)) (ht 0 (by omega))
  have hR0 : 0 ≤ R := (abs_nonneg _).trans (hR 0 (by omega))
  have hdiff : ∀ k < m, t k * t (k + 1) * (n (k + 1) - n k) = -(κ * (t (k + 1) - t k)) := by
    intro k hk
    linear_combination t k * hκ (k + 1) (by omega) - t (k + 1) * hκ k (by omega)
  have hne' : ∃ k < m, n (k + 1) ≠ n k := by
    obtain ⟨k, hk, h⟩ := hne
    refine ⟨k, hk, fun e => h ?_⟩
    have := hdiff k hk
    rw [e, sub_self, mul_zero] at this
    have : κ * (t (k + 1) - t k) = 0 := by linarith
    rcases mul_eq_zero.1 this with h' | h'
    · exact absurd h' hκ0.ne'
    · exact sub_eq_zero.1 h'
  have hTp : 0 < T := by
    obtain ⟨k, hk, hne⟩ := hne'
    refine Finset.sum_pos' (fun k hk => div_nonneg (sq_nonneg _) (hWp k (Finset.mem_range.1 hk)).le) ⟨k, Finset.mem_range.2 hk, ?_⟩
    exact div_pos (by have := sub_ne_zero.2 hne; show 0 < (n (k + 1) - n k) ^ 2; positivity) (hWp k hk)
  -- the error of the intercept
  set a : ℕ → K := fun k => n (k + 1) * (y (k + 1) - (D * t (k + 1) + c₀)) - n k * (y k - (D * t k + c₀)) with ha
  have hja : ∀ k < m, |jump n (k + 1) * a k| ≤ q * R * jump n (k + 1) ^ 2 := by
    intro k hk
    have hk0 := hn k (by omega)
    have hk1 := hn (k + 1) (by omega)
    by_cases e : t (k + 1) = t k
    · have h0 : n (k + 1) - n k = 0 := by
        have := hdiff k hk
        rw [e, sub_self, mul_zero, neg_zero] at this
        rcases mul_eq_zero.1 this with h | h
        · exact absurd h (mul_pos (ht k (by omega)) (ht k (by omega))).ne'
        · exact h
      simp only [jump]
      rw [h0]
      simp
    · have hsum : n k + n (k + 1) ≤ q * |n (k + 1) - n k| := by
        have hp := mul_pos (ht k (by omega)) (ht (k + 1) (by omega))
        have e1 : t k * t (k + 1) * (n k + n (k + 1)) = κ * (t k + t (k + 1)) := by
          linear_combination t (k + 1) * hκ k (by omega) + t k * hκ (k + 1) (by omega)
        have e2 : t k * t (k + 1) * |n (k + 1) - n k| = κ * |t (k + 1) - t k| := by
          have := congrArg abs (hdiff k hk)
          rw [abs_mul, abs_of_pos hp, abs_neg, abs_mul, abs_of_pos hκ0] at this
          exact this
        have e3 : t k * t (k + 1) * (n k + n (k + 1)) ≤ t k * t (k + 1) * (q * |n (k + 1) - n k|) := by
          rw [e1, mul_left_comm, e2]
          calc κ * (t k + t (k + 1)) ≤ κ * (q * |t (k + 1) - t k|) := mul_le_mul_of_nonneg_left (hq k hk e) hκ0.le
            _ = q * (κ * |t (k + 1) - t k|) := by ring
        exact le_of_mul_le_mul_left e3 hp
      have hak : |a k| ≤ q * R * |n (k + 1) - n k| := by
        calc |a k| ≤ |n (k + 1) * (y (k + 1) - (D * t (k + 1) + c₀))| + |n k * (y k - (D * t k + c₀))| := abs_sub _ _
          _ = n (k + 1) * |y (k + 1) - (D * t (k + 1) + c₀)| + n k * |y k - (D * t k + c₀)| := by rw [abs_mul, abs_mul, abs_of_pos hk0, abs_of_pos hk1]
          _ ≤ n (k + 1) * R + n k * R := add_le_add (mul_le_mul_of_nonneg_left (hR _ (by omega)) hk1.le) (mul_le_mul_of_nonneg_left (hR _ (by omega)) hk0.le)
          _ = (n k + n (k + 1)) * R := by ring
          _ ≤ q * |n (k + 1) - n k| * R := mul_le_mul_of_nonneg_right hsum hR0
          _ = q * R * |n (k + 1) - n k| := by ring
      have hj : jump n (k + 1) = n (k + 1) - n k := rfl
      rw [hj, abs_mul]
      calc |n (k + 1) - n k| * |a k| ≤ |n (k + 1) - n k| * (q * R * |n (k + 1) - n k|) := mul_le_mul_of_nonneg_left hak (abs_nonneg _)
        _ = q * R * |n (k + 1) - n k| ^ 2 := by ring
        _ = q * R * (n (k + 1) - n k) ^ 2 := by rw [sq_abs]
  set d : K := (∑ k ∈ Finset.range m, jump n (k + 1) * a k / W k) / T with hd
  have hdT : d * T = ∑ k ∈ Finset.range m, jump n (k + 1) * a k / W k := div_mul_cancel₀ _ hTp.ne'
  have hN : ∑ k ∈ Finset.range m, jump n (k + 1) * (jump (fun i => n i * y i) (k + 1) - (c₀ + d) * jump n (k + 1)) / jump (fun i => v i * n i ^ 2) (k + 1) = 0 := by
    have : ∀ k ∈ Finset.range m, jump n (k + 1) * (jump (fun i => n i * y i) (k + 1) - (c₀ + d) * jump n (k + 1)) / jump (fun i => v i * n i ^ 2) (k + 1) =
        jump n (k + 1) * a k / W k - d * (jump n (k + 1) ^ 2 / W k) := by
      intro k hk
      have hk := Finset.mem_range.1 hk
      have e : jump (fun i => n i * y i) (k + 1) - (c₀ + d) * jump n (k + 1) = a k - d * jump n (k + 1) := by
        simp only [jump, ha]
        linear_combination D * (hκ (k + 1) (by omega) - hκ k (by omega))
      rw [e]
      show _ / W k = _
      ring
    rw [Finset.sum_congr rfl this, Finset.sum_sub_distrib, ← Finset.mul_sum, ← hT, hdT, sub_self]
  have hdR : |d| ≤ q * R := by
    have : |d| * T ≤ q * R * T := by
      rw [← abs_of_pos hTp, ← abs_mul, hdT, abs_of_pos hTp, hT, Finset.mul_sum]
      refine (Finset.abs_sum_le_sum_abs _ _).trans (Finset.sum_le_sum fun k hk => ?_)
      have hk := Finset.mem_range.1 hk
      rw [abs_div, abs_of_pos (hWp k hk), ← mul_div_assoc]
      exact div_le_div_of_nonneg_right (hja k hk) (hWp k hk).le
    exact le_of_mul_le_mul_right this hTp
  have ht0 := ht 0 (by omega)
  rw [best_line_clipped v n t y hn extra A P hA hP logdet κ hκ ht0 hv hw hne' _ hN hb]
  have h1 : |max 0 ((y 0 - (c₀ + d)) / t 0) - D| ≤ |(y 0 - (c₀ + d)) / t 0 - D| := by
    have := abs_max_sub_max_le_abs ((y 0 - (c₀ + d)) / t 0) D 0
    rwa [max_eq_left hD, max_comm] at this
  refine h1.trans ?_
  have e : (y 0 - (c₀ + d)) / t 0 - D = ((y 0 - (D * t 0 + c₀)) - d) / t 0 := by
    field_simp
    ring
  rw [e, abs_div, abs_of_pos ht0]
  refine div_le_div_of_nonneg_right ?_ ht0.le
  calc |(y 0 - (D * t 0 + c₀)) - d| ≤ |y 0 - (D * t 0 + c₀)| + |d| := abs_sub _ _
    _ ≤ R + q * R := add_le_add (hR 0 (by omega)) hdR
    _ = (1 + q) * R := by ring

/-- `D`, `c` are the gradient and intercept of the best line in a fit of `b` from position `r` on, to at least two different times: positive variances `v`, whether measured (`b.v`) or from a model, with a positive
definite matrix (`v n²` increases, C41), and its inverse as weights. -/
def FittedLine (b : Boot K) (r : ℕ) (D c : K) : Prop :=
  ∃ (v : List (Option K)) (m : ℕ) (W : Matrix (Fin (m + 1)) (Fin (m + 1)) K) (ld best : K), v.length = b.n.length ∧ m + 1 = b.n.length - r ∧ FitWeights { b with v := v } r W ∧
    (∀ i, r ≤ i → i < b.n.length → ∃ y, v[i]? = some (some y) ∧ 0 < y) ∧ (∀ N ∈ b.nO, 0 < N) ∧
    (∀ (i : ℕ) (x x' N N' : K), r ≤ i → v[i]? = some (some x) → v[i + 1]? = some (some x') → b.nO[i]? = some N → b.nO[i + 1]? = some N' → x * N ^ 2 < x' * N' ^ 2) ∧
    (∃ i t t', r ≤ i ∧ b.dt[i]? = some t ∧ b.dt[i + 1]? = some t' ∧ t' ≠ t) ∧ BestLine (fitLL b r ld W) D c best

/-- `line_error` for recorded data. -/
theorem fit_line_error {b : Boot K} {r : ℕ} {D c : K} (h : FittedLine b r D c) (hd : b.dt.length = b.n.length) (κ : K)
    (hκ : ∀ (k : ℕ) (t N : K), b.dt[k]? = some t → b.nO[k]? = some N → N * t = κ) (ht : ∀ t ∈ b.dt, 0 < t) (D₀ c₀ R q : K) (hD : 0 ≤ D₀)
    (hR : ∀ (i : ℕ) (t y : K), r ≤ i → b.dt[i]? = some t → b.n[i]? = some y → |y - (D₀ * t + c₀)| ≤ R)
    (hq : ∀ (i : ℕ) (t t' : K), r ≤ i → b.dt[i]? = some t → b.dt[i + 1]? = some t' → t' ≠ t → t + t' ≤ q * |t' - t|) {t₀ : K} (h0 : b.dt[r]? = some t₀) :
    |D - D₀| ≤ (1 + q) * R / t₀ := by
  obtain ⟨v, m, W, ld, best, hl, hm, hW, hv, hN, hinc, ⟨i₀, s, s', hi0, hs, hs', hne⟩, hb⟩ := h
  obtain ⟨A, hAP, vf, n, extra, hA, hf⟩ := fit_sequences (b := { b with v := v }) hW hm hl hv hN
  have gt : ∀ i < m + 1, b.dt[r + i]? = some ((b.dt.drop r).getD i 0) := fun i hi => by
    rw [List.getD_eq_getElem?_getD, List.getElem?_drop, List.getElem?_eq_getElem (by omega)]; rfl
  have gy : ∀ i < m + 1, b.n[r + i]? = some ((b.n.drop r).getD i 0) := fun i hi => by
    rw [List.getD_eq_getElem?_getD, List.getElem?_drop, List.getElem?_eq_getElem (by omega)]; rfl
  have hi1 : i₀ + 1 < b.dt.length := (List.getElem?_eq_some_iff.1 hs').1
  have key := line_error vf n (fun i => (b.dt.drop r).getD i 0) (fun i => (b.n.drop r).getD i 0) (fun i hi => (hf i hi).2.2.2) extra A W hA hAP ld κ
    (fun i hi => hκ _ _ _ (gt i hi) (hf i hi).2.2.1) (fun i hi => ht _ (List.mem_of_getElem? (gt i hi))) (hf 0 (by omega)).2.1
    (fun k hk => hinc (r + k) _ _ _ _ (by omega) (hf k (by omega)).1 (hf (k + 1) (by omega)).1 (hf k (by omega)).2.2.1 (hf (k + 1) (by omega)).2.2.1)
    ⟨i₀ - r, by omega, by
      have e1 := gt (i₀ - r) (by omega)
      have e2 := gt (i₀ - r + 1) (by omega)
      rw [show r + (i₀ - r) = i₀ by omega, hs] at e1
      rw [show r + (i₀ - r + 1) = i₀ + 1 by omega, hs'] at e2
      rw [← Option.some.inj e1, ← Option.some.inj e2]
      exact hne⟩ D₀ c₀ R q hD (fun i hi => hR _ _ _ (by omega) (gt i hi) (gy i hi)) (fun k hk => hq (r + k) _ _ (by omega) (gt k (by omega)) (gt (k + 1) (by omega))) hb
  have e := gt 0 (by omega)
  rw [add_zero, h0] at e
  rw [← Option.some.inj e] at key
  exact key

/-- **C141.** The default fit, with an intercept: all readers of one trajectory of two or more atoms, MSD, MSTD and MSCD, whatever the (positive) variances of the values are.  If the values that are fitted are within `R` of a line
with gradient `D₀`, then the fitted gradient is within `(1 + q) R / t₀` of `D₀`, where `t₀` is the first time and `q` bounds `(t + t') / |t' - t|` for neighbouring times (`2 M` for intervals of up to `M` frames). -/
theorem C141_line (E : Num K) (hfl : E.fl = id) (P : Params K) (hpos : P.stepSkip.val * P.timeStep.val ≠ 0) (hsm : P.sampling = "multi-origin") (S : Select K) (rd : Grid K → PyM (Base K))
    (hr : ReadsGrid E P S rd) (γ : Grid K) (sq : K → K) (o : Oracle K G) (U : UncParams K) (hsub : U.sub = 1) (charge : Charge K) (g₁ g₂ : G) (Z : Analyzer K)
    (h : diffusionAnalyzer sq o g₁ U (rd γ) = .ok (Z, g₂) ∨ jumpAnalyzer sq o g₁ U (rd γ) = .ok (Z, g₂) ∨ conductivityAnalyzer sq o g₁ U charge (rd γ) = .ok (Z, g₂)) (h2 : ∀ a ∈ Z.disp3d, 2 ≤ a.n0)
    (ht : ∀ t ∈ Z.diff.dt, 0 < t) (r : ℕ) (D c : K) (hD : FittedLine Z.diff r D c) (D₀ c₀ R q : K) (hD0 : 0 ≤ D₀)
    (hR : ∀ (i : ℕ) (t y : K), r ≤ i → Z.diff.dt[i]? = some t → Z.diff.n[i]? = some y → |y - (D₀ * t + c₀)| ≤ R)
    (hq : ∀ (i : ℕ) (t t' : K), r ≤ i → Z.diff.dt[i]? = some t → Z.diff.dt[i + 1]? = some t' → t' ≠ t → t + t' ≤ q * |t' - t|) (t₀ : K) (h0 : Z.diff.dt[r]? = some t₀) :
    |D - D₀| ≤ (1 + q) * R / t₀ := by
  obtain ⟨κ, hκ⟩ := C134_constant E hfl P hpos hsm S rd hr γ sq o U hsub charge g₁ g₂ Z h h2
  refine fit_line_error hD ?_ κ hκ ht D₀ c₀ R q hD0 hR hq h0
  rcases h with h | h | h
  · obtain ⟨B, -, -, hm⟩ := diffusion_inv h
    obtain ⟨b0, q, i1, -, i2, -⟩ := msdBootstrap_inv hm
    rw [i2.ldt, i2.ln]
  · obtain ⟨B, -, -, hm⟩ := jump_inv h
    obtain ⟨b0, q, i1, -, i2, -⟩ := mstdBootstrap_inv hm
    rw [i2.ldt, i2.ln]
  · obtain ⟨B, -, -, hm⟩ := conductivity_inv h
    obtain ⟨b0, q, i1, -, i2, -⟩ := mscdBootstrap_inv hm
    rw [i2.ldt, i2.ln]

/-- **C141, any number of atoms.** The same for all frames of a trajectory with times that ascend, also when a single atom moves and the long intervals are left out. -/
theorem C141_line_atoms (E : Num K) (hfl : E.fl = id) (P : Params K) (hpos : 0 < P.stepSkip.val * P.timeStep.val) (hsm : P.sampling = "multi-origin") (S : Select K) (fr : List (Frame K)) (uni : Universe K)
    (base : PyM (Base K)) (unit : K) (hb : ReadFrames E P S fr uni base unit) (sq : K → K) (o : Oracle K G) (U : UncParams K) (hsub : U.sub = 1) (charge : Charge K) (g₁ g₂ : G) (Z : Analyzer K)
    (h : diffusionAnalyzer sq o g₁ U base = .ok (Z, g₂) ∨ jumpAnalyzer sq o g₁ U base = .ok (Z, g₂) ∨ conductivityAnalyzer sq o g₁ U charge base = .ok (Z, g₂))
    (ht : ∀ t ∈ Z.deltaT, 0 < t) (hasc : Z.deltaT.Pairwise (· ≤ ·)) (ht' : ∀ t ∈ Z.diff.dt, 0 < t) (r : ℕ) (D c : K) (hD : FittedLine Z.diff r D c) (D₀ c₀ R q : K) (hD0 : 0 ≤ D₀)
    (hR : ∀ (i : ℕ) (t y : K), r ≤ i → Z.diff.dt[i]? = some t → Z.diff.n[i]? = some y → |y - (D₀ * t + c₀)| ≤ R)
    (hq : ∀ (i : ℕ) (t t' : K), r ≤ i → Z.diff.dt[i]? = some t → Z.diff.dt[i + 1]? = some t' → t' ≠ t → t + t' ≤ q * |t' - t|) (t₀ : K) (h0 : Z.diff.dt[r]? = some t₀) :
    |D - D₀| ≤ (1 + q) * R / t₀ := by
  obtain ⟨κ, hκ⟩ := C134_constant_atoms E hfl P hsm hpos S fr uni base unit hb sq o U hsub charge g₁ g₂ Z h ht hasc
  refine fit_line_error hD ?_ κ hκ ht' D₀ c₀ R q hD0 hR hq h0
  rcases h with h | h | h
  · obtain ⟨B, -, -, hm⟩ := diffusion_inv h
    obtain ⟨b0, q, i1, -, i2, -⟩ := msdBootstrap_inv hm
    rw [i2.ldt, i2.ln]
  · obtain ⟨B, -, -, hm⟩ := jump_inv h
    obtain ⟨b0, q, i1, -, i2, -⟩ := mstdBootstrap_inv hm
    rw [i2.ldt, i2.ln]
  · obtain ⟨B, -, -, hm⟩ := conductivity_inv h
    obtain ⟨b0, q, i1, -, i2, -⟩ := mscdBootstrap_inv hm
    rw [i2.ldt, i2.ln]

/-! ### Example -/

/-- `C141_line` and `C141_line_atoms` for a run of the library: a fit of the last two intervals of a trajectory (times 24 and 30) has the gradient 7/32; the values are within 3/20 of the line with gradient 1/5 and intercept -1/2, so the gradient
is within 1/16 of 1/5. -/
example : ∃ Z, exGridRun exAllGrid = .ok (Z, ()) ∧ FittedLine Z.diff 3 (7 / 32) (-369 / 400) ∧ |(7 / 32 : ℚ) - 1 / 5| ≤ (1 + 9) * (3 / 20) / 24 := by
  obtain ⟨⟨Z, u⟩, h⟩ := ok_of_isSome (x := exGridRun exAllGrid) (by decide +kernel)
  have k : (exGridRun exAllGrid).toOption.map (fun z => (z.1.diff.dt, z.1.disp3d.all fun a => decide (2 ≤ a.n0))) = some ([6, 12, 18, 24, 30], true) := by decide +kernel
  have k' : (exGridRun exAllGrid).toOption.map (fun z => (z.1.diff.n, z.1.diff.nO)) = some ([73 / 250, 37 / 32, 64 / 25, 1731 / 400, 141 / 25], [20, 10, 20 / 3, 5, 4]) := by decide +kernel
  have k'' : (exGridRun exAllGrid).toOption.map (fun z => z.1.diff.v) = some [some (17847 / 2375000), some (1327231 / 6000000), some (15849 / 10000), some (4309083 / 700000), some (7881 / 625)] := by
    decide +kernel
  have kt : (exGridRun exAllGrid).toOption.map (fun z => z.1.deltaT) = some [6, 12, 18, 24, 30] := by decide +kernel
  rw [h] at k k' k'' kt
  simp only [Except.toOption, Option.map_some, Option.some.injEq, Prod.mk.injEq] at k k' k'' kt
  obtain ⟨kd, ka⟩ := k
  obtain ⟨kn, ko⟩ := k'
  have hW : FitWeights Z.diff 3 !![6590617600000 / 9623746536129, -2800000 / 6700089; -2800000 / 6700089, 2240000 / 6700089] := ⟨!![4309083 / 700000, 4309083 / 560000; 4309083 / 560000, 7881 / 625], by rw [k'', ko]; exact ok_of_toOption (by decide +kernel), by decide +kernel⟩
  have hv : ∀ i, 3 ≤ i → i < Z.diff.n.length → ∃ y, Z.diff.v[i]? = some (some y) ∧ 0 < y := by
    intro i h3 hi
    rw [kn] at hi
    rw [k'']
    match i, h3, hi with
    | 3, _, _ => exact ⟨_, rfl, by norm_num⟩
    | 4, _, _ => exact ⟨_, rfl, by norm_num⟩
  have hb := (C134_intercept (m := 1) (exIncr [4309083 / 700000, 7881 / 625]) (exIncr [5, 4]) (exIncr [24, 30]) (exIncr [1731 / 400, 141 / 25]) (by decide +kernel) [] !![4309083 / 700000, 4309083 / 560000; 4309083 / 560000, 7881 / 625] !![6590617600000 / 9623746536129, -2800000 / 6700089; -2800000 / 6700089, 2240000 / 6700089]
    (ok_of_toOption (by decide +kernel)) (by decide +kernel) 0 120 (by decide +kernel) (by decide +kernel) (by decide +kernel) (by decide +kernel) (-369 / 400) (by decide +kernel) (by decide +kernel)).1
  obtain ⟨best, hb⟩ := hb
  have hF : FittedLine Z.diff 3 (7 / 32) (-369 / 400) := by
    refine ⟨Z.diff.v, 1, _, 0, best, by rw [k'', kn]; rfl, by rw [kn]; rfl, hW, hv, by rw [ko]; decide +kernel, ?_, ⟨3, 24, 30, le_rfl, by rw [kd]; rfl, by rw [kd]; rfl, by norm_num⟩, ?_⟩
    · intro i x x' N N' h3 e1 e2 e3 e4
      rw [k''] at e1 e2
      rw [ko] at e3 e4
      match i, h3 with
      | 3, _ =>
        cases e1; cases e2; cases e3; cases e4
        norm_num
      | i + 4, _ => simp at e2
    · have e2 : fitLL Z.diff 3 0 !![6590617600000 / 9623746536129, -2800000 / 6700089; -2800000 / 6700089, 2240000 / 6700089] = logLikelihood 0 !![6590617600000 / 9623746536129, -2800000 / 6700089; -2800000 / 6700089, 2240000 / 6700089] (fun i => exIncr [24, 30] i) (fun i => exIncr [1731 / 400, 141 / 25] i) := by
        unfold fitLL
        rw [kd, kn]
        rfl
      rw [e2]
      have e3 : (exIncr [1731 / 400, 141 / 25] 0 - -369 / 400) / exIncr [24, 30] 0 = (7 / 32 : ℚ) := by decide +kernel
      rw [e3] at hb
      exact hb
  have hR : ∀ (i : ℕ) (t y : ℚ), 3 ≤ i → Z.diff.dt[i]? = some t → Z.diff.n[i]? = some y → |y - (1 / 5 * t + -1 / 2)| ≤ 3 / 20 := by
    intro i t y h3 e1 e2
    rw [kd] at e1
    rw [kn] at e2
    match i, h3 with
    | 3, _ => cases e1; cases e2; norm_num [abs_le]
    | 4, _ => cases e1; cases e2; norm_num [abs_le]
    | i + 5, _ => simp at e1
  have hq : ∀ (i : ℕ) (t t' : ℚ), 3 ≤ i → Z.diff.dt[i]? = some t → Z.diff.dt[i + 1]? = some t' → t' ≠ t → t + t' ≤ 9 * |t' - t| := by
    intro i t t' h3 e1 e2 _
    rw [kd] at e1 e2
    match i, h3 with
    | 3, _ => cases e1; cases e2; norm_num
    | i + 4, _ => simp at e2
  have atoms : |(7 / 32 : ℚ) - 1 / 5| ≤ (1 + 9) * (3 / 20) / 24 :=
    C141_line_atoms exNum rfl (onGrid exParams exAllGrid) (by decide +kernel) rfl _ exMixed ([], []) _ 1 (.inl ⟨rfl, rfl⟩) id (exOracle ℚ) exUnc rfl (.scalar 1) () () Z (.inl h) (by rw [kt]; decide +kernel)
      (by rw [kt]; decide +kernel) (by rw [kd]; decide +kernel) 3 (7 / 32) (-369 / 400) hF (1 / 5) (-1 / 2) (3 / 20) 9 (by norm_num) hR hq 24 (by rw [kd]; rfl)
  exact ⟨Z, h, hF, C141_line exNum rfl exParams (by decide +kernel) rfl _ _ (.ase 1 exMixed) exAllGrid id (exOracle ℚ) exUnc rfl (.scalar 1) () () Z (.inl h) (by simpa using ka) (by rw [kd]; decide +kernel) 3
    (7 / 32) (-369 / 400) hF (1 / 5) (-1 / 2) (3 / 20) 9 (by norm_num) hR hq 24 (by rw [kd]; rfl)⟩

end Kinisi
