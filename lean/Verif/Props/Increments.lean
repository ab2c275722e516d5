import Verif.Lemmas.Increments
import Verif.Props.Intervals
import Verif.Props.Swapped
import Verif.Spec.Efficiency
import Mathlib.Tactic.LinearCombination

/-!
# C134: which intervals determine the diffusion coefficient
-/

set_option linter.unusedSectionVars false
set_option linter.unusedVariables false

namespace Kinisi
open Spec
variable {K : Type} [Field K] [LinearOrder K] [IsStrictOrderedRing K] [FloorRing K] {G : Type}

/-- **C134, likelihood.** With the matrix built by kinisi and its inverse, the log-likelihood of a line is that of independent increments: the residuals, multiplied by the numbers
of observations, change from interval to interval independently, with the variances given by the change of `v n²`. -/
theorem C134_likelihood {m : ℕ} (v n t y : ℕ → K) (hn : ∀ i < m, 0 < n i) (extra : List K) (A P : Matrix (Fin m) (Fin m) K)
    (hA : populateCovariance (List.ofFn fun i : Fin m => some (v i)) ((List.ofFn fun i : Fin m => n i) ++ extra) = .ok (rowsOf A)) (hP : A * P = 1)
    (logdet g : K) (hg : 0 ≤ g) (rest : List K) :
    logLikelihood logdet P (fun i => t i) (fun i => y i) (g :: rest) =
      some (-(1 / 2) * (logdet + ∑ k ∈ Finset.range m, jump (fun i => n i * (g * t i + rest.getD 0 0 - y i)) k ^ 2 / jump (fun i => v i * n i ^ 2) k)) := by
  unfold logLikelihood
  rw [if_neg (by simpa using hg)]
  simp only [straightLine, List.getD_cons_zero, List.getD_cons_succ]
  rw [inverse_form v n hn extra A P hA hP fun i => g * t i + rest.getD 0 0 - y i]

/-- The sum over the increments for data with `n t` constant: only the first increment contains the gradient. -/
theorem increments_const {m : ℕ} (v n t y : ℕ → K) (hn : ∀ i < m + 1, 0 < n i) {κ : K} (hκ : ∀ i < m + 1, n i * t i = κ) (g c : K) :
    ∑ k ∈ Finset.range (m + 1), jump (fun i => n i * (g * t i + c - y i)) k ^ 2 / jump (fun i => v i * n i ^ 2) k =
      (y 0 - (g * t 0 + c)) ^ 2 / v 0 + ∑ k ∈ Finset.range m, (jump (fun i => n i * y i) (k + 1) - c * jump n (k + 1)) ^ 2 / jump (fun i => v i * n i ^ 2) (k + 1) := by
  rw [Finset.sum_range_succ', add_comm]
  congr 1
  · simp only [jump]
    have h0 := (hn 0 (by omega)).ne'
    rw [mul_pow, mul_comm (v 0), mul_div_mul_left _ _ (pow_ne_zero 2 h0)]
    congr 1
    ring
  · refine Finset.sum_congr rfl fun k hk => ?_
    have hk := Finset.mem_range.1 hk
    congr 1
    simp only [jump]
    have h1 := hκ k (by omega)
    have h2 := hκ (k + 1) (by omega)
    have : (n (k + 1) * (g * t (k + 1) + c - y (k + 1)) - n k * (g * t k + c - y k)) ^ 2 =
      (n (k + 1) * y (k + 1) - n k * y k - c * (n (k + 1) - n k)) ^ 2 := by
      rw [show n (k + 1) * (g * t (k + 1) + c - y (k + 1)) - n k * (g * t k + c - y k) =
        -(n (k + 1) * y (k + 1) - n k * y k - c * (n (k + 1) - n k)) by linear_combination g * (h2 - h1)]
      ring
    exact this

/-- **C134, first interval.** If the numbers of observations are inversely proportional to the times, the log-likelihood of a line through the origin is, up to a constant, that of the
first fitted point alone, and it is highest exactly for the line through the origin and this point. -/
theorem C134_first_interval {m : ℕ} (v n t y : ℕ → K) (hn : ∀ i < m + 1, 0 < n i) (extra : List K) (A P : Matrix (Fin (m + 1)) (Fin (m + 1)) K)
    (hA : populateCovariance (List.ofFn fun i : Fin (m + 1) => some (v i)) ((List.ofFn fun i : Fin (m + 1) => n i) ++ extra) = .ok (rowsOf A)) (hP : A * P = 1)
    (logdet κ : K) (hκ : ∀ i < m + 1, n i * t i = κ) :
    (∃ R : K, ∀ g : K, logLikelihood logdet P (fun i => t i) (fun i => y i) [g] = (onePoint (t 0) (y 0) (v 0) [g]).map (· + R)) ∧
    (0 < t 0 → 0 ≤ y 0 → 0 < v 0 → ∀ g : K, (∃ best, BestRay (logLikelihood logdet P (fun i => t i) (fun i => y i)) g best) ↔ g = y 0 / t 0) := by
  have key : ∃ R : K, ∀ g : K, logLikelihood logdet P (fun i => t i) (fun i => y i) [g] = (onePoint (t 0) (y 0) (v 0) [g]).map (· + R) := by
    refine ⟨-(1 / 2) * (logdet + ∑ k ∈ Finset.range m, jump (fun i => n i * y i) (k + 1) ^ 2 / jump (fun i => v i * n i ^ 2) (k + 1)), fun g => ?_⟩
    by_cases hg : 0 ≤ g
    · rw [C134_likelihood v n t y hn extra A P hA hP logdet g hg, increments_const v n t y hn hκ]
      unfold onePoint
      rw [if_neg (by simpa using hg)]
      simp only [List.getD_cons_zero, List.getD_nil, Option.map_some, zero_mul, sub_zero, add_zero, Option.some.injEq]
      rw [show (y 0 - g * t 0) ^ 2 / (2 * v 0) = 1 / 2 * ((y 0 - g * t 0) ^ 2 / v 0) by rw [mul_comm, div_mul_eq_div_div]; ring]
      ring
    · unfold logLikelihood onePoint
      rw [if_pos (by simpa using hg), if_pos (by simpa using hg)]
      rfl
  refine ⟨key, fun ht hy hv g => ?_⟩
  obtain ⟨R, hR⟩ := key
  have h0 : onePoint (t 0) (y 0) (v 0) [y 0 / t 0] = some 0 := by
    unfold onePoint
    rw [if_neg (by simpa using div_nonneg hy ht.le)]
    simp [div_mul_cancel₀ _ ht.ne']
  constructor
  · rintro ⟨best, h1, h2⟩
    have h3 := h2 (y 0 / t 0) (0 + R) (by rw [hR, h0]; rfl)
    rw [hR] at h1
    unfold onePoint at h1
    split_ifs at h1 with hg
    · cases h1
    · have h4 := Option.some.inj h1
      simp only [List.getD_cons_zero] at h4
      have h5 : (y 0 - g * t 0) ^ 2 / (2 * v 0) ≤ 0 := by linarith
      have h6 : (y 0 - g * t 0) ^ 2 ≤ 0 := by
        by_contra hc
        exact absurd h5 (not_le.2 (div_pos (not_le.1 hc) (by linarith)))
      have h7 : y 0 - g * t 0 = 0 := by
        have := le_antisymm h6 (sq_nonneg _)
        exact pow_eq_zero_iff (two_ne_zero) |>.1 this
      rw [eq_div_iff ht.ne']
      linarith
  · rintro rfl
    refine ⟨0 + R, by rw [hR, h0]; rfl, fun g' l hl => ?_⟩
    rw [hR] at hl
    unfold onePoint at hl
    split_ifs at hl with hg
    · cases hl
    · rw [← Option.some.inj hl]
      have := div_nonneg (sq_nonneg (y 0 - ([g'] : List K).getD 0 0 * t 0)) (by linarith : 0 ≤ 2 * v 0)
      linarith

/-- **C134, intercept.** With an intercept the log-likelihood separates: the later intervals determine the intercept, from the increments of `n y` and of `n`; the gradient then is
that of the line through the intercept and the first fitted point.  The best line is unique unless all numbers of observations are the same. -/
theorem C134_intercept {m : ℕ} (v n t y : ℕ → K) (hn : ∀ i < m + 1, 0 < n i) (extra : List K) (A P : Matrix (Fin (m + 1)) (Fin (m + 1)) K)
    (hA : populateCovariance (List.ofFn fun i : Fin (m + 1) => some (v i)) ((List.ofFn fun i : Fin (m + 1) => n i) ++ extra) = .ok (rowsOf A)) (hP : A * P = 1)
    (logdet κ : K) (hκ : ∀ i < m + 1, n i * t i = κ) (ht : 0 < t 0) (hv : 0 < v 0) (hw : ∀ k < m, v k * n k ^ 2 < v (k + 1) * n (k + 1) ^ 2) (c : K) (hc : c ≤ y 0)
    (hN : ∑ k ∈ Finset.range m, jump n (k + 1) * (jump (fun i => n i * y i) (k + 1) - c * jump n (k + 1)) / jump (fun i => v i * n i ^ 2) (k + 1) = 0) :
    (∃ best, BestLine (logLikelihood logdet P (fun i => t i) (fun i => y i)) ((y 0 - c) / t 0) c best) ∧
    ((∃ k < m, n (k + 1) ≠ n k) → ∀ g' c' best', BestLine (logLikelihood logdet P (fun i => t i) (fun i => y i)) g' c' best' → g' = (y 0 - c) / t 0 ∧ c' = c) := by
  set W : ℕ → K := fun k => jump (fun i => v i * n i ^ 2) (k + 1) with hW
  have hWp : ∀ k < m, 0 < W k := fun k hk => sub_pos.2 (hw k hk)
  set S : K → K := fun c => ∑ k ∈ Finset.range m, (jump (fun i => n i * y i) (k + 1) - c * jump n (k + 1)) ^ 2 / W k with hS
  set T : K := ∑ k ∈ Finset.range m, jump n (k + 1) ^ 2 / W k with hT
  have hsplit : ∀ c', S c' = S c + (c' - c) ^ 2 * T := by
    intro c'
    have : S c' = S c + (c' - c) ^ 2 * T - 2 * (c' - c) *
        ∑ k ∈ Finset.range m, jump n (k + 1) * (jump (fun i => n i * y i) (k + 1) - c * jump n (k + 1)) / W k := by
      simp only [hS, hT, Finset.mul_sum, ← Finset.sum_add_distrib, ← Finset.sum_sub_distrib]
      refine Finset.sum_congr rfl fun k hk => ?_
      ring
    rw [this, hN]
    ring
  have hll : ∀ g c', 0 ≤ g → logLikelihood logdet P (fun i => t i) (fun i => y i) [g, c'] =
      some (-(1 / 2) * (logdet + ((y 0 - (g * t 0 + c')) ^ 2 / v 0 + (S c + (c' - c) ^ 2 * T)))) := by
    intro g c' hg
    rw [C134_likelihood v n t y hn extra A P hA hP logdet g hg]
    simp only [List.getD_cons_zero]
    rw [increments_const v n t y hn hκ, ← hsplit]
  have hT0 : 0 ≤ T := Finset.sum_nonneg fun k hk => div_nonneg (sq_nonneg _) (hWp k (Finset.mem_range.1 hk)).le
  have hg0 : 0 ≤ (y 0 - c) / t 0 := div_nonneg (sub_nonneg.2 hc) ht.le
  have hbest : logLikelihood logdet P (fun i => t i) (fun i => y i) [(y 0 - c) / t 0, c] = some (-(1 / 2) * (logdet + S c)) := by
    rw [hll _ _ hg0, div_mul_cancel₀ _ ht.ne']
    simp
  have hneg : ∀ g c' l, logLikelihood logdet P (fun i => t i) (fun i => y i) [g, c'] = some l → 0 ≤ g := by
    intro g c' l h
    by_contra hg
    unfold logLikelihood at h
    rw [if_pos (by simpa using hg)] at h
    cases h
  refine ⟨⟨_, hbest, fun g' c' l hl => ?_⟩, ?_⟩
  · rw [hll _ _ (hneg _ _ _ hl)] at hl
    rw [← Option.some.inj hl]
    have h1 := div_nonneg (sq_nonneg (y 0 - (g' * t 0 + c'))) hv.le
    have h2 := mul_nonneg (sq_nonneg (c' - c)) hT0
    linarith
  · rintro ⟨k, hk, hne⟩ g' c' best' ⟨h1, h2⟩
    have hTp : 0 < T := by
      refine Finset.sum_pos' (fun k hk => div_nonneg (sq_nonneg _) (hWp k (Finset.mem_range.1 hk)).le) ⟨k, Finset.mem_range.2 hk, ?_⟩
      exact div_pos (by have := sub_ne_zero.2 hne; show 0 < (n (k + 1) - n k) ^ 2; positivity) (hWp k hk)
    have h3 := h2 _ _ _ hbest
    rw [hll _ _ (hneg _ _ _ h1)] at h1
    rw [← Option.some.inj h1] at h3
    have h4 := div_nonneg (sq_nonneg (y 0 - (g' * t 0 + c'))) hv.le
    have h5 := mul_nonneg (sq_nonneg (c' - c)) hT0
    have h6 : (c' - c) ^ 2 * T = 0 := by linarith
    have h7 : (y 0 - (g' * t 0 + c')) ^ 2 / v 0 = 0 := by linarith
    have h8 : c' = c := by
      rcases mul_eq_zero.1 h6 with h | h
      · exact sub_eq_zero.1 (pow_eq_zero_iff (two_ne_zero) |>.1 h)
      · exact absurd h hTp.ne'
    refine ⟨?_, h8⟩
    rcases div_eq_zero_iff.1 h7 with h | h
    · have := pow_eq_zero_iff (two_ne_zero) |>.1 h
      rw [eq_div_iff ht.ne', ← h8]
      linarith
    · exact absurd h hv.ne'

/-! ## The fit -/

/-- **C134, fit.** Fit without an intercept, numbers of observations inversely proportional to the times, covariance matrix positive definite and left alone by the conditioning.  The chain
is that of the first fitted point alone, started at its value divided by its time: no later interval has any influence. -/
theorem C134_fit {L : GlsLib K} {a : GlsArgs K} {b b' : Boot K} (h : bootstrapGLS L a b = (b', .ok ())) (hi : a.fitIntercept = false)
    (hcov : b'.covariance = b'.npdCovariance) (hmin : FindsMaximum L.minimize) (hinv : ∀ m A P, PD A → L.pinvh m A = .ok P → A * P = 1)
    (hprop : ∀ s w, (L.propose s w).length = 1) (vs : List K) (hv : b'.modelV = some (vs.map some)) (κ : K)
    (hκ : ∀ (k : ℕ) (t N : K), b.dt[k]? = some t → b.nO[k]? = some N → 0 < N ∧ N * t = κ) (r : ℕ) (t₀ y₀ v₀ : K) (hr : b.dt[r]? = some t₀) (hs : a.startDt ≤ t₀)
    (hfirst : ∀ (k : ℕ) (t : K), k < r → b.dt[k]? = some t → t < a.startDt) (hy : b.n[r]? = some y₀) (hv0 : vs[0]? = some v₀) (ht : 0 < t₀) (hy0 : 0 ≤ y₀) (hvp : 0 < v₀)
    (hw : ∀ (k : ℕ) (v v' N N' : K), vs[k]? = some v → vs[k + 1]? = some v' → b.nO[r + k]? = some N → b.nO[r + k + 1]? = some N' → v * N ^ 2 < v' * N' ^ 2) :
    ∃ chain, getChain a.nBurn a.thin (runChain L (onePoint t₀ y₀ v₀) (a.nSamples + a.nBurn) 0
      ((List.range a.nWalkers).map fun w => [y₀ / t₀ + y₀ / t₀ * (1 / 1000) * L.randn w 0])) = .ok chain ∧ b'.flatchain = some chain := by
  obtain ⟨r', m, cov, chain, v, M, p1, p2, p3, p4, p5, p6, p7, p8⟩ := bootstrapGLS_parts h
  have hrr : r' = r := by
    obtain ⟨q1, q2, q3⟩ := diffRegime_ok_iff.1 p1
    rcases lt_trichotomy r' r with hlt | he | hlt
    · have := hfirst r' _ hlt (List.getElem?_eq_getElem q1)
      exact absurd q2 (not_le.2 this)
    · exact he
    · have h1 := q3 r hlt
      rw [List.getElem?_eq_getElem (by omega)] at hr
      rw [Option.some.inj hr] at h1
      exact absurd hs (not_le.2 h1)
  subst hrr
  rw [hv] at p2
  obtain rfl := Option.some.inj p2
  rw [List.length_map] at p3
  obtain ⟨logdet, inv, slope, ml, c1, c2, c3, c4, c5, c6, c7⟩ := sampleChain_ok p7
  rw [List.length_drop] at c3 c4
  have hnlen : m ≤ (b.nO.drop r').length := by
    by_contra hc
    rw [C40_short _ _ (by rw [List.length_map]; omega)] at p4
    cases p4
  have hnl := hnlen
  rw [List.length_drop] at hnl
  set vf : ℕ → K := fun i => vs.getD i 0 with hvf
  set nf : ℕ → K := fun i => (b.nO.drop r').getD i 0 with hnf
  set tf : ℕ → K := fun i => (b.dt.drop r').getD i 0 with htf
  set yf : ℕ → K := fun i => (b.n.drop r').getD i 0 with hyf
  have gv : ∀ i < m, vs[i]? = some (vf i) := fun i hi => by
    simp only [hvf, List.getD_eq_getElem?_getD]
    rw [List.getElem?_eq_getElem (by omega)]; rfl
  have gn : ∀ i < m, b.nO[r' + i]? = some (nf i) := fun i hi => by
    simp only [hnf, List.getD_eq_getElem?_getD, List.getElem?_drop]
    rw [List.getElem?_eq_getElem (by omega)]; rfl
  have gt : ∀ i < m, b.dt[r' + i]? = some (tf i) := fun i hi => by
    simp only [htf, List.getD_eq_getElem?_getD, List.getElem?_drop]
    rw [List.getElem?_eq_getElem (by omega)]; rfl
  have gy : ∀ i < m, b.n[r' + i]? = some (yf i) := fun i hi => by
    simp only [hyf, List.getD_eq_getElem?_getD, List.getElem?_drop]
    rw [List.getElem?_eq_getElem (by omega)]; rfl
  have hm0 : 0 < m := by
    have := (List.getElem?_eq_some_iff.1 hv0).1
    omega
  have e1 : vs.map some = List.ofFn fun i : Fin m => some (vf i) := by
    apply List.ext_getElem?
    intro i
    rw [List.getElem?_map, List.getElem?_ofFn]
    by_cases hi : i < m
    · rw [gv i hi, dif_pos hi]; rfl
    · rw [dif_neg hi, List.getElem?_eq_none (by omega)]; rfl
  have e2 : b.nO.drop r' = (List.ofFn fun i : Fin m => nf i) ++ (b.nO.drop r').drop m := by
    conv_lhs => rw [← List.take_append_drop m (b.nO.drop r')]
    congr 1
    apply List.ext_getElem?
    intro i
    rw [List.getElem?_take, List.getElem?_ofFn]
    by_cases hi : i < m
    · rw [if_pos hi, dif_pos hi, List.getElem?_drop, gn i hi]
    · rw [if_neg hi, dif_neg hi]
  have hnp : ∀ i < m, 0 < nf i := fun i hi => (hκ _ _ _ (gt i hi) (gn i hi)).1
  have hkt : ∀ i < m, nf i * tf i = κ := fun i hi => (hκ _ _ _ (gt i hi) (gn i hi)).2
  rw [e1, e2] at p4
  have hMA : M = rowsOf cov := by
    rw [p5, p6] at hcov
    exact (Option.some.inj hcov).symm
  rw [hMA] at p4
  have hPD : PD cov := by
    refine ((C41_psd_iff (fun i : Fin m => vf i) (fun i : Fin m => nf i) _ (fun i => hnp i i.2) cov p4).2).2 ?_
    have hstep : ∀ k, k + 1 < m → vf k * nf k ^ 2 < vf (k + 1) * nf (k + 1) ^ 2 := fun k hk =>
      hw k _ _ _ _ (gv k (by omega)) (gv (k + 1) hk) (gn k (by omega)) (gn (k + 1) hk)
    have hmono : ∀ d k, k + d + 1 < m → vf k * nf k ^ 2 < vf (k + d + 1) * nf (k + d + 1) ^ 2 := by
      intro d
      induction d with
      | zero => intro k hk; exact hstep k hk
      | succ d ih => intro k hk; exact (ih k (by omega)).trans (hstep _ hk)
    have h0 : 0 < vf 0 * nf 0 ^ 2 := by
      have := gv 0 hm0
      rw [hv0] at this
      rw [← Option.some.inj this]
      have := hnp 0 hm0
      positivity
    refine ⟨fun i => ?_, fun i j hij => ?_⟩
    · obtain ⟨i, hi⟩ := i
      cases i with
      | zero => exact h0
      | succ i => have := hmono i 0 (by omega); rw [zero_add] at this; exact h0.trans this
    · have hij' : i.val < j.val := hij
      have := hmono (j.val - i.val - 1) i.val (by have := j.2; omega)
      rwa [show i.val + (j.val - i.val - 1) + 1 = j.val by omega] at this
  have hAP := hinv m cov inv hPD c2
  have t0 : tf 0 = t₀ := by have := gt 0 hm0; rw [add_zero, hr] at this; exact (Option.some.inj this).symm
  have y0 : yf 0 = y₀ := by have := gy 0 hm0; rw [add_zero, hy] at this; exact (Option.some.inj this).symm
  have v0 : vf 0 = v₀ := by have := gv 0 hm0; rw [hv0] at this; exact (Option.some.inj this).symm
  obtain ⟨m, rfl⟩ : ∃ m', m = m' + 1 := ⟨m - 1, by omega⟩
  obtain ⟨⟨R, hR⟩, hbest⟩ := C134_first_interval vf nf tf yf hnp _ cov inv p4 hAP logdet κ hkt
  rw [t0, y0, v0] at hR hbest
  have hsp : startPoint a.fitIntercept slope = [if slope < 0 then 1 / 10 ^ 20 else slope] := by
    unfold startPoint
    rw [hi]
    rfl
  rw [hsp] at c6
  obtain ⟨m1, m2⟩ := hmin _ _ _ c6
  have hml : ml = [y₀ / t₀] := by
    obtain ⟨g, rfl⟩ := List.length_eq_one_iff.1 (m1.trans rfl)
    obtain ⟨l, hl⟩ : ∃ l, logLikelihood logdet inv (fun i => tf i) (fun i => yf i) [y₀ / t₀] = some l := by
      obtain ⟨l, hl, -⟩ := (hbest ht hy0 hvp _).2 rfl
      exact ⟨l, hl⟩
    obtain ⟨l', k1, k2⟩ := m2 [y₀ / t₀] l rfl hl
    rw [(hbest ht hy0 hvp g).1 ⟨l', k1, fun g' l1 h1 => ?_⟩]
    obtain ⟨l2, k3, k4⟩ := m2 [g'] l1 rfl h1
    have k3' : logLikelihood logdet inv (fun i => tf i) (fun i => yf i) [g] = some l2 := k3
    rw [k1] at k3'
    rwa [Option.some.inj k3']
  subst hml
  have hwalk : initialWalkers L a.nWalkers [y₀ / t₀] = (List.range a.nWalkers).map fun w => [y₀ / t₀ + y₀ / t₀ * (1 / 1000) * L.randn w 0] := rfl
  rw [hwalk] at c7
  refine ⟨chain, ?_, p8⟩
  rw [← c7]
  congr 1
  symm
  refine runChain_shift (p := fun θ => θ.length = 1) (δ := R) ?_ hprop _ _ _ ?_
  · intro θ hθ
    obtain ⟨g, rfl⟩ := List.length_eq_one_iff.1 hθ
    exact hR g
  · intro w hw
    obtain ⟨i, -, rfl⟩ := List.mem_map.1 hw
    rfl

/-- **C134, fit with model variances.** With the variances of the random walk model (`model=True`) the matrix is positive definite by itself, and nothing about the variances needs to be assumed: only
their fitted scale has to be positive. -/
theorem C134_model {L : GlsLib K} {a : GlsArgs K} {b b' : Boot K} (h : bootstrapGLS L a b = (b', .ok ())) (hi : a.fitIntercept = false) (hm : a.model = true)
    (hcov : b'.covariance = b'.npdCovariance) (hmin : FindsMaximum L.minimize) (hinv : ∀ m A P, PD A → L.pinvh m A = .ok P → A * P = 1)
    (hprop : ∀ s w, (L.propose s w).length = 1) (α : K) (hα : b'.popt = some α) (hα0 : 0 < α) (hlen : b.nO.length = b.dt.length) (hsort : b.dt.Pairwise (· < ·)) (κ : K)
    (hκ : ∀ (k : ℕ) (t N : K), b.dt[k]? = some t → b.nO[k]? = some N → 0 < N ∧ N * t = κ) (r : ℕ) (t₀ y₀ n₀ : K) (hr : b.dt[r]? = some t₀) (hs : a.startDt ≤ t₀)
    (hfirst : ∀ (k : ℕ) (t : K), k < r → b.dt[k]? = some t → t < a.startDt) (hy : b.n[r]? = some y₀) (hn0 : b.nO[r]? = some n₀) (ht : 0 < t₀) (hy0 : 0 ≤ y₀) :
    ∃ chain, getChain a.nBurn a.thin (runChain L (onePoint t₀ y₀ (α / n₀ * t₀ ^ 2)) (a.nSamples + a.nBurn) 0
      ((List.range a.nWalkers).map fun w => [y₀ / t₀ + y₀ / t₀ * (1 / 1000) * L.randn w 0])) = .ok chain ∧ b'.flatchain = some chain := by
  obtain ⟨r', α', v, p1, p2, p3, p4⟩ := bootstrapGLS_model h hm
  have hrr : r' = r := by
    obtain ⟨q1, q2, q3⟩ := diffRegime_ok_iff.1 p1
    rcases lt_trichotomy r' r with hlt | he | hlt
    · have := hfirst r' _ hlt (List.getElem?_eq_getElem q1)
      exact absurd q2 (not_le.2 this)
    · exact he
    · have h1 := q3 r hlt
      rw [List.getElem?_eq_getElem (by omega)] at hr
      rw [Option.some.inj hr] at h1
      exact absurd hs (not_le.2 h1)
  subst hrr
  rw [hα] at p2
  obtain rfl := Option.some.inj p2
  set vs : List K := ((b.nO.drop r').zip (b.dt.drop r')).map fun p => α / p.1 * p.2 ^ 2 with hvs
  have hpos : ∀ p ∈ (b.nO.drop r').zip (b.dt.drop r'), p.1 ≠ 0 := by
    intro p hp
    obtain ⟨i, hi, rfl⟩ := List.getElem_of_mem hp
    rw [List.length_zip, List.length_drop, List.length_drop] at hi
    rw [List.getElem_zip, List.getElem_drop]
    exact (hκ (r' + i) _ _ (List.getElem?_eq_getElem (by omega)) (List.getElem?_eq_getElem (by omega))).1.ne'
  have hv : v = vs.map some := by
    unfold modelVariance at p3
    rw [if_pos (by rw [List.length_drop, List.length_drop, hlen])] at p3
    rw [← Except.ok.inj p3, hvs, List.map_map]
    refine List.map_congr_left fun p hp => ?_
    simp [npDiv, npMul, hpos p hp]
  have gvs : ∀ k x, vs[k]? = some x → ∃ N t, b.nO[r' + k]? = some N ∧ b.dt[r' + k]? = some t ∧ x = α / N * t ^ 2 := by
    intro k x hx
    rw [hvs, List.getElem?_map] at hx
    cases e : ((b.nO.drop r').zip (b.dt.drop r'))[k]? with
    | none => rw [e] at hx; cases hx
    | some p =>
      rw [e] at hx
      obtain ⟨e1, e2⟩ := List.getElem?_zip_eq_some.1 e
      rw [List.getElem?_drop] at e1 e2
      exact ⟨p.1, p.2, e1, e2, (Option.some.inj hx).symm⟩
  have hκ0 : 0 < κ := by
    obtain ⟨h1, h2⟩ := hκ r' t₀ n₀ hr hn0
    rw [← h2]
    exact mul_pos h1 ht
  have hn0p := (hκ r' t₀ n₀ hr hn0).1
  have hv0 : vs[0]? = some (α / n₀ * t₀ ^ 2) := by
    rw [hvs, List.getElem?_map]
    have : ((b.nO.drop r').zip (b.dt.drop r'))[0]? = some (n₀, t₀) := by
      rw [List.getElem?_zip_eq_some, List.getElem?_drop, List.getElem?_drop, add_zero]
      exact ⟨hn0, hr⟩
    rw [this]
    rfl
  refine C134_fit h hi hcov hmin hinv hprop vs (by rw [p4, hv]) κ hκ r' t₀ y₀ _ hr hs hfirst hy hv0 ht hy0 (by positivity) ?_
  intro k x x' N N' h1 h2 h3 h4
  obtain ⟨M, t, g1, g2, rfl⟩ := gvs k x h1
  obtain ⟨M', t', g3, g4, rfl⟩ := gvs (k + 1) x' h2
  rw [h3] at g1
  rw [← add_assoc] at g3 g4
  rw [h4] at g3
  obtain rfl := Option.some.inj g1
  obtain rfl := Option.some.inj g3
  obtain ⟨q1, q2⟩ := hκ _ _ _ g2 h3
  obtain ⟨q3, q4⟩ := hκ _ _ _ g4 h4
  have hlt : t < t' := by
    obtain ⟨l1, l2⟩ := List.getElem?_eq_some_iff.1 g2
    obtain ⟨l3, l4⟩ := List.getElem?_eq_some_iff.1 g4
    rw [← l2, ← l4]
    exact List.pairwise_iff_getElem.1 hsort _ _ l1 l3 (by omega)
  have e1 : α / N * t ^ 2 * N ^ 2 = α * κ * t := by rw [← q2]; field_simp
  have e2 : α / N' * t' ^ 2 * N' ^ 2 = α * κ * t' := by rw [← q4]; field_simp
  rw [e1, e2]
  exact mul_lt_mul_of_pos_left hlt (mul_pos hα0 hκ0)

/-! ## Where the numbers of observations are inversely proportional to the times -/

theorem onIntervals_const {D : ℤ → Arr3 K} {c : K} {N : ℕ} {B : Base K} (h : OnIntervals D c N B) :
    ∃ κ : K, ∀ (k : ℕ) (t n : K), B.deltaT[k]? = some t → B.nO[k]? = some n → n * t = κ := by
  obtain ⟨ti, t1, t2, -, -, t5⟩ := h
  refine ⟨(((N : ℤ) * ti.getLastD 0 : ℤ) : K) * c, fun k t n h1 h2 => ?_⟩
  rw [t2, List.getElem?_map] at h1
  rw [t5, List.getElem?_map] at h2
  cases e : ti[k]? with
  | none => rw [e] at h1; cases h1
  | some τ =>
  rw [e] at h1 h2
  rw [← Option.some.inj h1, ← Option.some.inj h2]
  have : ((τ : ℤ) : K) ≠ 0 := by exact_mod_cast t1 τ (List.mem_of_getElem? e)
  field_simp

theorem recorded_const {sq : K → K} {o : Oracle K G} {opt : BootOpts K} {Q : Quantity K} {B : Base K} {d : String} {b0 b1 b : Boot K} {q : ℕ}
    (hb : bootInit B.deltaT B.disp3d B.nO 1 d = .ok b0) (hrec : Recorded sq o opt Q B.nO b0 q b) (he : b = { b1 with nO := B.nO.take q })
    {κ : K} (hκ : ∀ (k : ℕ) (t n : K), B.deltaT[k]? = some t → B.nO[k]? = some n → n * t = κ) :
    ∀ (k : ℕ) (t n : K), b.dt[k]? = some t → b.nO[k]? = some n → n * t = κ := by
  intro k t n h1 h2
  have hk : k < q := by rw [← hrec.ldt]; exact (List.getElem?_eq_some_iff.1 h1).1
  obtain ⟨a, l, m, w, t', -, -, -, -, e5, -, -, -, -, e10, -⟩ := hrec.entry k hk
  rw [h1] at e10
  obtain rfl := Option.some.inj e10
  obtain ⟨ds, dts, sel, d0, i1, i2, -, -, rfl⟩ := bootInit_inv hb
  rw [pyStride_one] at i2
  obtain rfl := Except.ok.inj i2
  refine hκ k t n e5 ?_
  rw [he] at h2
  rw [List.getElem?_take] at h2
  split_ifs at h2
  exact h2

/-- **C134, numbers of observations.** One trajectory of any format, all starting points, two or more atoms, no sub-sampling of the intervals: for each of the three analyses the number of
observations times the interval is the same for all intervals. -/
theorem C134_constant (E : Num K) (hfl : E.fl = id) (P : Params K) (hpos : P.stepSkip.val * P.timeStep.val ≠ 0) (hsm : P.sampling = "multi-origin")
    (S : Select K) (rd : Grid K → PyM (Base K)) (hr : ReadsGrid E P S rd) (γ : Grid K) (sq : K → K) (o : Oracle K G) (U : UncParams K) (hsub : U.sub = 1)
    (charge : Charge K) (g₁ g₂ : G) (Z : Analyzer K)
    (h : diffusionAnalyzer sq o g₁ U (rd γ) = .ok (Z, g₂) ∨ jumpAnalyzer sq o g₁ U (rd γ) = .ok (Z, g₂) ∨ conductivityAnalyzer sq o g₁ U charge (rd γ) = .ok (Z, g₂))
    (h2 : ∀ a ∈ Z.disp3d, 2 ≤ a.n0) :
    ∃ κ : K, ∀ (k : ℕ) (t N : K), Z.diff.dt[k]? = some t → Z.diff.nO[k]? = some N → N * t = κ := by
  rcases h with h | h | h
  · obtain ⟨B, hB, rfl, m⟩ := diffusion_inv h
    rw [hsub] at m
    obtain ⟨b0, q, i1, -, i2, -, b1, -, i3⟩ := msdBootstrap_inv m
    obtain ⟨c, hc, D, N, hN, k1, -⟩ := reads_intervals hfl hpos hsm hr hB hB (disp_ne_nil i1) h2
    obtain ⟨κ, hκ⟩ := onIntervals_const k1
    exact ⟨κ, recorded_const i1 i2 i3 hκ⟩
  · obtain ⟨B, hB, rfl, m⟩ := jump_inv h
    rw [hsub] at m
    obtain ⟨b0, q, i1, -, i2, -, b1, -, i3⟩ := mstdBootstrap_inv m
    obtain ⟨c, hc, D, N, hN, k1, -⟩ := reads_intervals hfl hpos hsm hr hB hB (disp_ne_nil i1) h2
    obtain ⟨κ, hκ⟩ := onIntervals_const k1
    exact ⟨κ, recorded_const i1 i2 i3 hκ⟩
  · obtain ⟨B, hB, rfl, m⟩ := conductivity_inv h
    rw [hsub] at m
    obtain ⟨b0, q, i1, -, i2, -, b1, -, i3⟩ := mscdBootstrap_inv m
    obtain ⟨c, hc, D, N, hN, k1, -⟩ := reads_intervals hfl hpos hsm hr hB hB (disp_ne_nil i1) h2
    obtain ⟨κ, hκ⟩ := onIntervals_const k1
    exact ⟨κ, recorded_const i1 i2 i3 hκ⟩

/-! ## Examples -/

/-- Three intervals 1, 2, 3 with 6, 3, 2 observations, variances 1, 5, 14, values 2, 3, 7. -/
def exIncr (l : List ℚ) (i : ℕ) : ℚ := l.getD i 0

theorem exIncr_matrix : populateCovariance (List.ofFn fun i : Fin 3 => some (exIncr [1, 5, 14] i)) ((List.ofFn fun i : Fin 3 => exIncr [6, 3, 2] i) ++ []) =
      .ok (rowsOf !![1, 2, 3; 2, 5, 15 / 2; 3, 15 / 2, (14 : ℚ)]) ∧
    !![1, 2, 3; 2, 5, 15 / 2; 3, 15 / 2, (14 : ℚ)] * !![5, -2, 0; -2, 20 / 11, -6 / 11; 0, -6 / 11, 4 / 11] = 1 ∧
    (∀ i < 3, 0 < exIncr [6, 3, 2] i) ∧ ∀ i < 3, exIncr [6, 3, 2] i * exIncr [1, 2, 3] i = 6 :=
  ⟨ok_of_toOption (by decide +kernel), by decide +kernel, by decide +kernel, by decide +kernel⟩

/-- `C134_likelihood`: gradient 1 and intercept 1. -/
example : logLikelihood (0 : ℚ) !![5, -2, 0; -2, 20 / 11, -6 / 11; 0, -6 / 11, 4 / 11] (fun i => exIncr [1, 2, 3] i) (fun i => exIncr [2, 3, 7] i) [1, 1] =
    some (-(1 / 2) * (0 + 36 / 11)) := by
  obtain ⟨h1, h2, h3, -⟩ := exIncr_matrix
  rw [C134_likelihood (exIncr [1, 5, 14]) (exIncr [6, 3, 2]) _ _ h3 [] _ _ h1 h2 0 1 (by norm_num)]
  decide +kernel

/-- `C134_first_interval`: the best line through the origin has gradient 2; the last two values play no part. -/
example (g : ℚ) : (∃ best, BestRay (logLikelihood (0 : ℚ) !![5, -2, 0; -2, 20 / 11, -6 / 11; 0, -6 / 11, 4 / 11] (fun i => exIncr [1, 2, 3] i) (fun i => exIncr [2, 3, 7] i)) g best) ↔
    g = 2 := by
  obtain ⟨h1, h2, h3, h4⟩ := exIncr_matrix
  have := (C134_first_interval (exIncr [1, 5, 14]) (exIncr [6, 3, 2]) (exIncr [1, 2, 3]) (exIncr [2, 3, 7]) h3 [] _ _ h1 h2 0 6 h4).2 (by decide +kernel) (by decide +kernel)
    (by decide +kernel) g
  rw [this]
  norm_num [exIncr]

/-- `C134_intercept`: the best line is `3 / 2 t + 1 / 2`. -/
example : (∃ best, BestLine (logLikelihood (0 : ℚ) !![5, -2, 0; -2, 20 / 11, -6 / 11; 0, -6 / 11, 4 / 11] (fun i => exIncr [1, 2, 3] i) (fun i => exIncr [2, 3, 7] i)) (3 / 2) (1 / 2) best) ∧
    (∀ g' c' best', BestLine (logLikelihood (0 : ℚ) !![5, -2, 0; -2, 20 / 11, -6 / 11; 0, -6 / 11, 4 / 11] (fun i => exIncr [1, 2, 3] i) (fun i => exIncr [2, 3, 7] i)) g' c' best' →
      g' = 3 / 2 ∧ c' = 1 / 2) := by
  obtain ⟨h1, h2, h3, h4⟩ := exIncr_matrix
  have := C134_intercept (exIncr [1, 5, 14]) (exIncr [6, 3, 2]) (exIncr [1, 2, 3]) (exIncr [2, 3, 7]) h3 [] _ _ h1 h2 0 6 h4 (by decide +kernel) (by decide +kernel)
    (by decide +kernel) (1 / 2) (by decide +kernel) (by decide +kernel)
  have e : (exIncr [2, 3, 7] 0 - 1 / 2) / exIncr [1, 2, 3] 0 = 3 / 2 := by decide +kernel
  rw [e] at this
  exact ⟨this.1, this.2 ⟨0, by decide, by decide +kernel⟩⟩

/-- The routines for the fit of two intervals, correct for the matrix of the example (eigenvalues 128 and 3). -/
def exRayLib : GlsLib ℚ where
  curveFit _ _ _ := .error .external
  eig m A := match m, A with
    | 1, A => if A = !![48, 60; 60, 83] then .ok (fun i => [128, 3].getD i.val 0, !![3 / 5, 4 / 5; 4 / 5, -3 / 5]) else .error .linAlgError
    | _, _ => .error .linAlgError
  covNearest _ A := .ok A
  slogdet _ _ := .ok 0
  pinvh m A := match m, A with
    | 2, A => if A = !![48, 60; 60, 83] then .ok !![83 / 384, -5 / 32; -5 / 32, 1 / 8] else .error .linAlgError
    | _, _ => .error .linAlgError
  linregress t _ := if t.length < 2 then .error .valueError else .ok (-1)
  minimize _ _ := .ok [2]
  randn w _ := w
  emceeCheck _ _ _ := .ok ()
  propose s w := [(s : ℚ) / 2 + 1 - w]
  threshold s _ := -(s + 1) / 100
  dist l := if l = [] then .error .indexError else .ok ()

theorem exRayLib_inv (m : ℕ) (A P : Matrix (Fin m) (Fin m) ℚ) (h : exRayLib.pinvh m A = .ok P) : A * P = 1 := by
  match m, A, P, h with
  | 0, A, P, h => cases h
  | 1, A, P, h => cases h
  | 2, A, P, h =>
    simp only [exRayLib] at h
    split_ifs at h with hA
    rw [← Except.ok.inj h, hA]
    decide +kernel
  | m + 3, A, P, h => cases h

/-- A minimiser that returns the gradient `g` if this is a maximum. -/
noncomputable def exRayMinimize (g : ℚ) (f : List ℚ → Option ℚ) (x0 : List ℚ) : PyM (List ℚ) := by
  classical
  exact if [g].length = x0.length ∧ ∀ θ l, θ.length = x0.length → f θ = some l → ∃ l', f [g] = some l' ∧ l ≤ l' then .ok [g] else .error .external

theorem exRayMinimize_finds (g : ℚ) : FindsMaximum (exRayMinimize g) := by
  intro f x0 ml h
  unfold exRayMinimize at h
  split_ifs at h with hex
  rw [← Except.ok.inj h]
  exact hex

/-- Replacing the minimiser by one with the same result on the log-likelihood. -/
theorem bootstrapGLS_minimize {L : GlsLib K} {M' : (List K → Option K) → List K → PyM (List K)} {a : GlsArgs K} {b : Boot K}
    (h : ∀ r m cov logdet inv slope, diffRegime b.dt a.startDt = .ok r → (b.dt.drop r).length = m → (b.n.drop r).length = m → L.slogdet m cov = .ok logdet → L.pinvh m cov = .ok inv →
      M' (logLikelihood logdet inv (fun i => (b.dt.drop r).getD i 0) (fun i => (b.n.drop r).getD i 0)) (startPoint a.fitIntercept slope) =
        L.minimize (logLikelihood logdet inv (fun i => (b.dt.drop r).getD i 0) (fun i => (b.n.drop r).getD i 0)) (startPoint a.fitIntercept slope)) :
    bootstrapGLS { L with minimize := M' } a b = bootstrapGLS L a b := by
  have hchain : ∀ ll n s ws, runChain { L with minimize := M' } ll n s ws = runChain L ll n s ws := by
    intro ll n
    induction n with
    | zero => intro s ws; rfl
    | succ n ih =>
      intro s ws
      simp only [runChain]
      rw [ih, show ensembleStep { L with minimize := M' } ll s ws = ensembleStep L ll s ws from rfl]
  unfold bootstrapGLS
  rw [show (markFit a b).dt = b.dt from rfl]
  cases hr : diffRegime b.dt a.startDt with
  | error e => rfl
  | ok r =>
  simp only [fitFrom]
  rw [show generateCovariance { L with minimize := M' } a (markFit a b) r = generateCovariance L a (markFit a b) r from rfl]
  cases hg : generateCovariance L a (markFit a b) r with
  | mk b2 o =>
  cases o with
  | error e => rfl
  | ok mc =>
  obtain ⟨m, cov⟩ := mc
  obtain ⟨⟨_, _, _, _, _, _, _, e⟩, -⟩ := generateCovariance_pre hg
  have hdt : b2.dt = b.dt := by rw [e]; rfl
  have hn : b2.n = b.n := by rw [e]; rfl
  simp only [hdt, hn]
  have hs : sampleChain { L with minimize := M' } a (b.dt.drop r) (b.n.drop r) m cov = sampleChain L a (b.dt.drop r) (b.n.drop r) m cov := by
    unfold sampleChain
    simp only [bind, Except.bind]
    cases h1 : L.slogdet m cov with
    | error e => rfl
    | ok logdet =>
    cases h2 : L.pinvh m cov with
    | error e => rfl
    | ok inv =>
    simp only
    by_cases hl : (b.dt.drop r).length ≠ m ∨ (b.n.drop r).length ≠ m
    · rw [if_pos hl, if_pos hl]
    · rw [if_neg hl, if_neg hl]
      push Not at hl
      cases L.linregress (b.dt.drop r) (b.n.drop r) with
      | error e => rfl
      | ok slope =>
      simp only
      rw [h r m cov logdet inv slope hr hl.1 hl.2 h1 h2]
      simp only [hchain]
      rfl
  rw [hs]
  rfl

/-- The MSD is 9, 8, 7 at the times 1, 4, 5, with 20, 5, 4 observations. -/
def exRayBoot : Boot ℚ := { exBoot with dt := [1, 4, 5], n := [9, 8, 7], v := [some 1, some 48, some 83], nO := [20, 5, 4] }

/-- `C134_fit`: the fit from the time 2 on of a falling curve.  The chain is that of the point 8 at the time 4 alone, started from the gradient 2. -/
example : ∃ b', bootstrapGLS { exRayLib with minimize := exRayMinimize 2 } (exArgs 2 false) exRayBoot = (b', .ok ()) ∧
    (∃ chain, getChain 1 2 (runChain { exRayLib with minimize := exRayMinimize 2 } (onePoint 4 8 48) 6 0 [[2], [2 + 2 / 1000]]) = .ok chain ∧ b'.flatchain = some chain) ∧
    b'.flatchain = some [[2], [1001 / 500], [2], [2]] := by
  have o1 : (bootstrapGLS exRayLib (exArgs 2 false) exRayBoot).2.toOption = some () := by decide +kernel
  have o2 : (bootstrapGLS exRayLib (exArgs 2 false) exRayBoot).1.flatchain = some [[2], [1001 / 500], [2], [2]] := by decide +kernel
  have o3 : (bootstrapGLS exRayLib (exArgs 2 false) exRayBoot).1.modelV = some [some 48, some 83] := by decide +kernel
  have o4 : (bootstrapGLS exRayLib (exArgs 2 false) exRayBoot).1.covariance = some [[some 48, some 60], [some 60, some 83]] := by decide +kernel
  have o5 : (bootstrapGLS exRayLib (exArgs 2 false) exRayBoot).1.npdCovariance = some [[some 48, some 60], [some 60, some 83]] := by decide +kernel
  have hrun : bootstrapGLS { exRayLib with minimize := exRayMinimize 2 } (exArgs 2 false) exRayBoot = bootstrapGLS exRayLib (exArgs 2 false) exRayBoot := by
    refine bootstrapGLS_minimize fun r m cov logdet inv slope hr hm hm' h1 h2 => ?_
    have hr' : (diffRegime exRayBoot.dt (exArgs 2 false).startDt).toOption = some 1 := by decide +kernel
    rw [hr] at hr'
    obtain rfl := Option.some.inj hr'
    obtain rfl : 2 = m := hm
    have hcov : cov = !![48, 60; 60, 83] := by
      simp only [exRayLib] at h2
      split_ifs at h2 with h
      exact h
    have hinv := exRayLib_inv 2 cov inv h2
    have hpop : populateCovariance (List.ofFn fun i : Fin 2 => some (exIncr [48, 83] i)) ((List.ofFn fun i : Fin 2 => exIncr [5, 4] i) ++ []) = .ok (rowsOf cov) := by
      rw [hcov]
      exact ok_of_toOption (by decide +kernel)
    have hb := (C134_first_interval (exIncr [48, 83]) (exIncr [5, 4]) (exIncr [4, 5]) (exIncr [8, 7]) (by decide +kernel) [] cov inv hpop hinv logdet 20 (by decide +kernel)).2
      (by decide +kernel) (by decide +kernel) (by decide +kernel) 2
    obtain ⟨best, b1, b2⟩ := hb.2 (by decide +kernel)
    show exRayMinimize 2 _ _ = .ok [2]
    unfold exRayMinimize
    rw [if_pos]
    refine ⟨rfl, fun θ l hθ hl => ⟨best, b1, ?_⟩⟩
    obtain ⟨g, rfl⟩ := List.length_eq_one_iff.1 (hθ.trans rfl)
    exact b2 g l hl
  refine ⟨(bootstrapGLS exRayLib (exArgs 2 false) exRayBoot).1, hrun.trans (ok_of_outcome o1), ?_, o2⟩
  have := C134_fit (hrun.trans (ok_of_outcome o1)) rfl (o4.trans o5.symm) (exRayMinimize_finds 2) (fun m A P _ h => exRayLib_inv m A P h) (fun _ _ => rfl) [48, 83] o3 20
    (by
      intro k t N h1 h2
      match k with
      | 0 => cases h1; cases h2; decide +kernel
      | 1 => cases h1; cases h2; decide +kernel
      | 2 => cases h1; cases h2; decide +kernel
      | k + 3 => cases h1) 1 4 8 48 rfl (by decide +kernel)
    (by
      intro k t hk h1
      match k with
      | 0 => cases h1; decide +kernel
      | k + 1 => omega) rfl rfl (by norm_num) (by norm_num) (by norm_num)
    (by
      intro k v v' N N' h1 h2 h3 h4
      match k with
      | 0 => cases h1; cases h2; cases h3; cases h4; decide +kernel
      | k + 1 => cases h2)
  obtain ⟨chain, c1, c2⟩ := this
  refine ⟨chain, ?_, c2⟩
  rw [← c1]
  congr 2
  decide +kernel

/-- The routines for `C134_model`, for the matrix with rows 1, 2 and 2, 8 (a factorisation with unnormalised vectors is enough). -/
def exModelLib : GlsLib ℚ := { exRayLib with
  curveFit := fun _ _ _ => .ok 2
  eig := fun m A => match m, A with
    | 1, A => if A = !![1, 2; 2, 8] then .ok (fun i => [1, 4].getD i.val 0, !![1, 0; 2, 1]) else .error .linAlgError
    | _, _ => .error .linAlgError
  pinvh := fun m A => match m, A with
    | 2, A => if A = !![1, 2; 2, 8] then .ok !![2, -1 / 2; -1 / 2, 1 / 4] else .error .linAlgError
    | _, _ => .error .linAlgError
  minimize := fun _ _ => .ok [3] }

theorem exModelLib_inv (m : ℕ) (A P : Matrix (Fin m) (Fin m) ℚ) (h : exModelLib.pinvh m A = .ok P) : A * P = 1 := by
  match m, A, P, h with
  | 0, A, P, h => cases h
  | 1, A, P, h => cases h
  | 2, A, P, h =>
    simp only [exModelLib] at h
    split_ifs at h with hA
    rw [← Except.ok.inj h, hA]
    decide +kernel
  | m + 3, A, P, h => cases h

/-- The MSD is 3, 2 at the times 1, 2, with 2, 1 observations; the measured variances 7, 7 are not used. -/
def exModelBoot : Boot ℚ := { exBoot with dt := [1, 2], n := [3, 2], v := [some 7, some 7], nO := [2, 1] }

/-- `C134_model`: the chain is that of the point 3 at the time 1 alone. -/
example : ∃ b', bootstrapGLS { exModelLib with minimize := exRayMinimize 3 } { exArgs 1 false with model := true } exModelBoot = (b', .ok ()) ∧
    (∃ chain, getChain 1 2 (runChain { exModelLib with minimize := exRayMinimize 3 } (onePoint 1 3 (2 / 2 * 1 ^ 2)) 6 0 [[3], [3 + 3 / 1000]]) = .ok chain ∧
      b'.flatchain = some chain) := by
  have o1 : (bootstrapGLS exModelLib { exArgs 1 false with model := true } exModelBoot).2.toOption = some () := by decide +kernel
  have o3 : (bootstrapGLS exModelLib { exArgs 1 false with model := true } exModelBoot).1.popt = some 2 := by decide +kernel
  have o4 : (bootstrapGLS exModelLib { exArgs 1 false with model := true } exModelBoot).1.covariance =
    (bootstrapGLS exModelLib { exArgs 1 false with model := true } exModelBoot).1.npdCovariance := by decide +kernel
  have hrun : bootstrapGLS { exModelLib with minimize := exRayMinimize 3 } { exArgs 1 false with model := true } exModelBoot =
      bootstrapGLS exModelLib { exArgs 1 false with model := true } exModelBoot := by
    refine bootstrapGLS_minimize fun r m cov logdet inv slope hr hm hm' h1 h2 => ?_
    have hr' : (diffRegime exModelBoot.dt ({ exArgs 1 false with model := true } : GlsArgs ℚ).startDt).toOption = some 0 := by decide +kernel
    rw [hr] at hr'
    obtain rfl := Option.some.inj hr'
    obtain rfl : 2 = m := hm
    have hcov : cov = !![1, 2; 2, 8] := by
      simp only [exModelLib] at h2
      split_ifs at h2 with h
      exact h
    have hinv := exModelLib_inv 2 cov inv h2
    have hpop : populateCovariance (List.ofFn fun i : Fin 2 => some (exIncr [1, 8] i)) ((List.ofFn fun i : Fin 2 => exIncr [2, 1] i) ++ []) = .ok (rowsOf cov) := by
      rw [hcov]
      exact ok_of_toOption (by decide +kernel)
    have hb := (C134_first_interval (exIncr [1, 8]) (exIncr [2, 1]) (exIncr [1, 2]) (exIncr [3, 2]) (by decide +kernel) [] cov inv hpop hinv logdet 2 (by decide +kernel)).2
      (by decide +kernel) (by decide +kernel) (by decide +kernel) 3
    obtain ⟨best, b1, b2⟩ := hb.2 (by decide +kernel)
    show exRayMinimize 3 _ _ = .ok [3]
    unfold exRayMinimize
    rw [if_pos]
    refine ⟨rfl, fun θ l hθ hl => ⟨best, b1, ?_⟩⟩
    obtain ⟨g, rfl⟩ := List.length_eq_one_iff.1 (hθ.trans rfl)
    exact b2 g l hl
  refine ⟨(bootstrapGLS exModelLib { exArgs 1 false with model := true } exModelBoot).1, hrun.trans (ok_of_outcome o1), ?_⟩
  obtain ⟨chain, c1, c2⟩ := C134_model (hrun.trans (ok_of_outcome o1)) rfl rfl o4 (exRayMinimize_finds 3) (fun m A P _ h => exModelLib_inv m A P h) (fun _ _ => rfl) 2 o3
    (by norm_num) rfl (by decide +kernel) 2
    (by
      intro k t N h1 h2
      match k with
      | 0 => cases h1; cases h2; decide +kernel
      | 1 => cases h1; cases h2; decide +kernel
      | k + 2 => cases h1) 0 1 3 2 rfl (by decide +kernel) (fun k t hk => by omega) rfl rfl (by norm_num) (by norm_num)
  refine ⟨chain, ?_, c2⟩
  rw [← c1]
  congr 2
  decide +kernel

/-- `C134_constant` for an analysis of two atoms: 12 observations times 6. -/
example : ∃ Z κ, exGridRun exAllGrid = .ok (Z, ()) ∧ (∀ (k : ℕ) (t N : ℚ), Z.diff.dt[k]? = some t → Z.diff.nO[k]? = some N → N * t = κ) ∧ 2 ≤ Z.diff.dt.length := by
  obtain ⟨⟨Z, u⟩, h⟩ := ok_of_isSome (x := exGridRun exAllGrid) (by decide +kernel)
  have k : (exGridRun exAllGrid).toOption.map (fun z => (z.1.diff.dt.length, z.1.disp3d.all fun a => decide (2 ≤ a.n0))) = some (5, true) := by decide +kernel
  rw [h] at k
  simp only [Except.toOption, Option.map_some, Option.some.injEq, Prod.mk.injEq] at k
  obtain ⟨κ, hκ⟩ := C134_constant exNum rfl exParams (by decide +kernel) rfl _ _ (.ase 1 exMixed) exAllGrid id (exOracle ℚ) exUnc rfl (.scalar 1) () () Z (.inl h) (by simpa using k.2)
  exact ⟨Z, κ, h, hκ, by rw [k.1]; decide⟩

end Kinisi
