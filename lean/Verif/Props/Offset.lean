import Verif.Props.Units
import Verif.Props.Efficiency

/-!
# C126: a constant offset of the curve
-/

set_option linter.unusedSectionVars false
set_option linter.unusedVariables false

namespace Kinisi
open Spec
variable {K : Type} [Field K] [LinearOrder K] [IsStrictOrderedRing K] [FloorRing K]

/-- **C126, likelihood.** Adding the line with gradient `α` and intercept `δ` to the data moves the likelihood by `(α, δ)`, as far as the gradients are not
negative.  In particular (`α = 0`) an offset moves the intercept only. -/
theorem C126_likelihood {m : ℕ} (logdet : K) (P : Matrix (Fin m) (Fin m) K) (t y : Fin m → K) (α δ g c : K) (hg : 0 ≤ g) (hα : 0 ≤ g + α) :
    logLikelihood logdet P t (fun i => y i + (α * t i + δ)) [g + α, c + δ] = logLikelihood logdet P t y [g, c] := by
  unfold logLikelihood
  have h1 : ¬ ([g + α, c + δ] : List K).getD 0 0 < 0 := by simpa using hα
  have h2 : ¬ ([g, c] : List K).getD 0 0 < 0 := by simpa using hg
  rw [if_neg h1, if_neg h2]
  have hd : (fun i => straightLine (t i) [g + α, c + δ] - (y i + (α * t i + δ))) = fun i => straightLine (t i) [g, c] - y i := by
    funext i
    simp only [straightLine, List.getD_cons_zero, List.getD_cons_succ]
    ring
  rw [hd]

theorem likelihood_offset {m : ℕ} (logdet : K) (P : Matrix (Fin m) (Fin m) K) (t y : Fin m → K) (δ g c : K) :
    logLikelihood logdet P t (fun i => y i + δ) [g, c + δ] = logLikelihood logdet P t y [g, c] := by
  by_cases hg : 0 ≤ g
  · have := C126_likelihood logdet P t y 0 δ g c hg (by simpa using hg)
    simpa using this
  · unfold logLikelihood
    rw [if_pos (by simpa using hg), if_pos (by simpa using hg)]

/-- **C126, best line.** With an intercept, the line of highest likelihood for the data with an offset is the one for the data themselves moved by the offset:
its gradient, hence D, is the same. -/
theorem C126_best_line {m : ℕ} (logdet : K) (P : Matrix (Fin m) (Fin m) K) (t y : Fin m → K) (δ g c best : K) :
    BestLine (logLikelihood logdet P t fun i => y i + δ) g (c + δ) best ↔ BestLine (logLikelihood logdet P t y) g c best := by
  unfold BestLine
  rw [likelihood_offset]
  refine and_congr_right fun _ => ⟨fun h g' c' l hl => h g' (c' + δ) l ?_, fun h g' c' l hl => h g' (c' - δ) l ?_⟩
  · rw [likelihood_offset]; exact hl
  · rw [← likelihood_offset logdet P t y δ, sub_add_cancel]; exact hl

/-- **C126, no intercept.** Without an intercept an offset changes the gradient of highest likelihood, by the gradient of the ray fitted to the constant. -/
theorem C126_no_intercept {m : ℕ} (logdet : K) (P : Matrix (Fin m) (Fin m) K) (hs : ∀ i j, P i j = P j i) (hP : PD P) (t y : Fin m → K)
    (ht : ∃ i, t i ≠ 0) (δ g g' best best' : K) (hg : 0 < g) (hg' : 0 < g') (h : BestRay (logLikelihood logdet P t y) g best)
    (h' : BestRay (logLikelihood logdet P t fun i => y i + δ) g' best') :
    0 < form P t t ∧ g' = g + δ * (form P t (fun _ => 1) / form P t t) := by
  have hpsd : PSD P := by
    intro x
    by_cases hx : x = 0
    · subst hx; simp
    · exact (hP x hx).le
  have htt : 0 < form P t t := hP t fun h0 => by
    obtain ⟨i, hi⟩ := ht
    exact hi (congrFun h0 i)
  have n := normalEquation_of_best hs hpsd hg h
  have n' := normalEquation_of_best hs hpsd hg' h'
  refine ⟨htt, ?_⟩
  unfold NormalEquation at n n'
  have expand : ∀ (z : Fin m → K) (a : K), form P t (lineResidual t z a 0) = form P t z - a * form P t t := by
    intro z a
    unfold form lineResidual
    rw [Finset.mul_sum, ← Finset.sum_sub_distrib]
    refine Finset.sum_congr rfl fun i _ => ?_
    rw [Finset.mul_sum, ← Finset.sum_sub_distrib]
    refine Finset.sum_congr rfl fun j _ => ?_
    ring
  have shift : form P t (fun i => y i + δ) = form P t y + δ * form P t (fun _ => 1) := by
    unfold form
    rw [Finset.mul_sum, ← Finset.sum_add_distrib]
    refine Finset.sum_congr rfl fun i _ => ?_
    rw [Finset.mul_sum, ← Finset.sum_add_distrib]
    refine Finset.sum_congr rfl fun j _ => ?_
    ring
  rw [expand] at n n'
  rw [shift] at n'
  have htt' := htt.ne'
  field_simp
  linear_combination n - n'

/-- The line of highest likelihood is unique, also where the gradient is zero. -/
theorem bestLine_unique {m : ℕ} {logdet : K} {P : Matrix (Fin m) (Fin m) K} (hP : PD P) {t y : Fin m → K} (ht : ∃ i j, t i ≠ t j) {g c g' c' best best' : K}
    (h : BestLine (logLikelihood logdet P t y) g c best) (h' : BestLine (logLikelihood logdet P t y) g' c' best') : g' = g ∧ c' = c := by
  have pos : ∀ {g c best : K}, BestLine (logLikelihood logdet P t y) g c best → 0 ≤ g := by
    intro g c best hb
    by_contra hneg
    have := hb.1
    unfold logLikelihood at this
    rw [if_pos (by simpa using hneg)] at this
    cases this
  have hg := pos h
  have hg' := pos h'
  have hbb : best' = best := le_antisymm (h.2 _ _ _ h'.1) (h'.2 _ _ _ h.1)
  subst hbb
  by_contra hne
  set d : Fin m → K := fun i => (g - g') * t i + (c - c') with hd
  have hd0 : d ≠ 0 := by
    intro h0
    obtain ⟨i, j, hij⟩ := ht
    have hi := congrFun h0 i
    have hj := congrFun h0 j
    simp only [hd, Pi.zero_apply] at hi hj
    have : (g - g') * (t i - t j) = 0 := by linear_combination hi - hj
    rcases mul_eq_zero.mp this with h1 | h1
    · have hgg : g' = g := by linear_combination -h1
      rw [hgg] at hi
      exact hne ⟨hgg, by linear_combination -hi⟩
    · exact hij (sub_eq_zero.mp h1)
  have hpos := hP d hd0
  have e1 := h.1
  have e2 := h'.1
  have hmid : 0 ≤ (g + g') / 2 := by positivity
  have hm := h.2 ((g + g') / 2) ((c + c') / 2) _ (logLikelihood_eq logdet P t y [(g + g') / 2, (c + c') / 2] (by simpa using hmid))
  rw [logLikelihood_eq logdet P t y [g, c] (by simpa using hg)] at e1
  rw [logLikelihood_eq logdet P t y [g', c'] (by simpa using hg')] at e2
  simp only [List.getD_cons_zero, List.getD_cons_succ, Option.some.injEq] at e1 e2 hm
  have par : form P (lineResidual t y ((g + g') / 2) ((c + c') / 2)) (lineResidual t y ((g + g') / 2) ((c + c') / 2)) =
      (form P (lineResidual t y g c) (lineResidual t y g c) + form P (lineResidual t y g' c') (lineResidual t y g' c')) / 2
        - (∑ i, ∑ j, d i * P i j * d j) / 4 := by
    unfold form lineResidual
    rw [← Finset.sum_add_distrib, Finset.sum_div, Finset.sum_div, ← Finset.sum_sub_distrib]
    refine Finset.sum_congr rfl fun i _ => ?_
    rw [← Finset.sum_add_distrib, Finset.sum_div, Finset.sum_div, ← Finset.sum_sub_distrib]
    refine Finset.sum_congr rfl fun j _ => ?_
    simp only [hd]
    ring
  rw [par] at hm
  linarith

/-- The offset of all recorded values. -/
def addOffset (δ : K) (b : Boot K) : Boot K := { b with n := b.n.map (· + δ) }

/-- **C126, fit.** Two fits with intercept, of a curve and of the same curve with the offset `δ`, use the same covariance matrix and the same weights, and the samplings start from
lines with the same gradient whose intercepts differ by exactly `δ`, on likelihoods that are moved by `δ`. -/
theorem C126_fit {L : GlsLib K} {a : GlsArgs K} {b b1 b2 : Boot K} (δ : K) (h1 : bootstrapGLS L a b = (b1, .ok ()))
    (h2 : bootstrapGLS L a (addOffset δ b) = (b2, .ok ())) (hi : a.fitIntercept = true) (hmin : FindsMaximum L.minimize)
    (hinv : ∀ m A P, L.pinvh m A = .ok P → PD P) (hs : b.dt.Pairwise (· < ·))
    (hf : 2 ≤ (b.dt.filter fun x => decide (a.startDt ≤ x)).length) :
    b2.covariance = b1.covariance ∧
    ∃ (g c : K) (ll ll' : List K → Option K) (chain chain' : List (List K)),
      (∀ g' c' : K, ll' [g', c' + δ] = ll [g', c']) ∧ (∃ best, BestLine ll g c best ∧ BestLine ll' g (c + δ) best) ∧
      b1.flatchain = some chain ∧ b2.flatchain = some chain' ∧
      getChain a.nBurn a.thin (runChain L ll (a.nSamples + a.nBurn) 0 (initialWalkers L a.nWalkers [g, c])) = .ok chain ∧
      getChain a.nBurn a.thin (runChain L ll' (a.nSamples + a.nBurn) 0 (initialWalkers L a.nWalkers [g, c + δ])) = .ok chain' := by
  have hs' : b.dt.Pairwise (· ≤ ·) := hs.imp fun h => le_of_lt h
  obtain ⟨-, -, -, -, r, m, cov, chain, gr, b3, b4, e1, rfl, e3, e4, e5, e6, -⟩ := bootstrapGLS_ok h1
  obtain ⟨-, -, -, -, r', m', cov', chain', gr', b3', b4', f1, rfl, f3, f4, f5, f6, -⟩ := bootstrapGLS_ok h2
  obtain rfl : r = r' := by
    have : (addOffset δ b).dt = b.dt := rfl
    rw [this, e1] at f1
    exact Except.ok.inj f1
  have hcov := (generateCovariance_drop L a (markFit a b) (markFit a (addOffset δ b)) r r rfl rfl rfl (by unfold SameResults; repeat' constructor)).1
  rw [e3, f3] at hcov
  have hcov' := Except.ok.inj hcov
  obtain ⟨rfl, hcov''⟩ := Sigma.mk.inj hcov'
  obtain rfl := eq_of_heq hcov''
  refine ⟨by rw [e4, f4], ?_⟩
  obtain ⟨logdet, P, slope, ml, q1, q2, q3, q4, q5, q6, q7⟩ := sampleChain_ok e5
  obtain ⟨logdet', P', slope', ml', u1, u2, u3, u4, u5, u6, u7⟩ := sampleChain_ok f5
  obtain rfl := Except.ok.inj (q1.symm.trans u1)
  obtain rfl := Except.ok.inj (q2.symm.trans u2)
  have hpd := hinv m cov P q2
  have hy : (fun i : Fin m => ((addOffset δ b).n.drop r).getD i 0) = fun i : Fin m => (b.n.drop r).getD i 0 + δ := by
    funext i
    have hi1 : (i : ℕ) < (b.n.drop r).length := by rw [q4]; exact i.2
    have : (addOffset δ b).n.drop r = (b.n.drop r).map (· + δ) := by simp [addOffset, List.map_drop]
    rw [this, List.getD_eq_getElem?_getD, List.getD_eq_getElem?_getD, List.getElem?_map, List.getElem?_eq_getElem hi1]
    rfl
  rw [hy, show (addOffset δ b).dt = b.dt from rfl] at u6 u7
  have hm2 : 2 ≤ m := by
    rw [← q3, ← fittedPart_drop hs' e1 b.dt rfl]
    unfold fittedPart
    rw [List.length_map]
    have : b.dt = (b.dt.zip b.dt).map Prod.fst := by rw [List.map_fst_zip]; exact le_refl _
    conv at hf => rw [this, List.filter_map, List.length_map]
    exact hf
  have hdiff : ∃ i j : Fin m, (b.dt.drop r).getD i 0 ≠ (b.dt.drop r).getD j 0 := by
    refine ⟨⟨0, by omega⟩, ⟨1, by omega⟩, ?_⟩
    have hl : 1 < (b.dt.drop r).length := by omega
    simp only [List.getD_eq_getElem?_getD, List.getElem?_eq_getElem hl, List.getElem?_eq_getElem (show 0 < (b.dt.drop r).length by omega), Option.getD_some]
    exact ne_of_lt (List.pairwise_iff_getElem.mp (hs.sublist (List.drop_sublist _ _)) 0 1 (by omega) hl (by omega))
  have best : ∀ (y : Fin m → K) (s : K) (ml : List K), L.minimize (logLikelihood logdet P (fun i : Fin m => (b.dt.drop r).getD i 0) y) (startPoint a.fitIntercept s) = .ok ml →
      ∃ g c l, ml = [g, c] ∧ BestLine (logLikelihood logdet P (fun i : Fin m => (b.dt.drop r).getD i 0) y) g c l := by
    intro y s ml hml
    have hst : (startPoint a.fitIntercept s).length = 2 := by unfold startPoint; rw [hi]; simp
    obtain ⟨m1, m2⟩ := hmin _ _ _ hml
    rw [hst] at m1 m2
    obtain ⟨l, m3, -⟩ := m2 [0, 0] _ rfl (logLikelihood_eq logdet P (fun i : Fin m => (b.dt.drop r).getD i 0) y [0, 0] (le_refl _))
    match ml, m1 with
    | [g, c], _ =>
      refine ⟨g, c, l, rfl, m3, fun g' c' l' hl' => ?_⟩
      obtain ⟨l2, m4, m5⟩ := m2 [g', c'] l' rfl hl'
      rw [m3] at m4
      rw [Option.some.inj m4]
      exact m5
  obtain ⟨g, c, l, rfl, hb⟩ := best _ _ _ q6
  obtain ⟨g', c', l', rfl, hb'⟩ := best _ _ _ u6
  have hb2 := (C126_best_line logdet P (fun i : Fin m => (b.dt.drop r).getD i 0) (fun i : Fin m => (b.n.drop r).getD i 0) δ g c l).mpr hb
  obtain ⟨rfl, rfl⟩ := bestLine_unique hpd hdiff hb2 hb'
  exact ⟨g', c, _, _, chain, chain', fun x z => likelihood_offset logdet P _ _ δ x z, ⟨l, hb, hb2⟩, e6, f6, q7, u7⟩

theorem exLine_optimum_moved : exactOptimum (logLikelihood (0 : ℚ) (1 : Matrix (Fin 2) (Fin 2) ℚ) (fun i => [2, 3].getD i 0) (fun i => [8, 10].getD i 0))
    (startPoint true (3 / 2)) = .ok [2, 4] := by
  have hform : ∀ x : Fin 2 → ℚ, ∑ i, ∑ j, x i * (1 : Matrix (Fin 2) (Fin 2) ℚ) i j * x j = x 0 ^ 2 + x 1 ^ 2 := by
    intro x
    simp [Fin.sum_univ_two, Matrix.one_apply]
    ring
  obtain ⟨best, h1, h2, h3⟩ := C87_exact_line (0 : ℚ) (1 : Matrix (Fin 2) (Fin 2) ℚ) (by intro i j; rw [Matrix.one_apply, Matrix.one_apply]; simp [eq_comm])
    (by intro x; rw [hform]; positivity) (fun i => [2, 3].getD i 0) (fun i => [8, 10].getD i 0) 2 4 (by norm_num) (by decide +kernel)
  have hex : ∃ ml : List ℚ, ml.length = (startPoint true (3 / 2 : ℚ)).length ∧ ∀ θ l, θ.length = (startPoint true (3 / 2 : ℚ)).length →
      logLikelihood (0 : ℚ) (1 : Matrix (Fin 2) (Fin 2) ℚ) (fun i => [2, 3].getD i 0) (fun i => [8, 10].getD i 0) θ = some l →
      ∃ l', logLikelihood (0 : ℚ) (1 : Matrix (Fin 2) (Fin 2) ℚ) (fun i => [2, 3].getD i 0) (fun i => [8, 10].getD i 0) ml = some l' ∧ l ≤ l' := by
    refine ⟨[2, 4], rfl, fun θ l hθ hl => ⟨best, h1, ?_⟩⟩
    match θ, hθ with
    | [g', c'], _ => exact h2 g' c' l hl
  unfold exactOptimum
  rw [dif_pos hex]
  have hsp := hex.choose_spec
  congr 1
  generalize hex.choose = ml at hsp
  obtain ⟨k1, k2⟩ := hsp
  match ml, k1 with
  | [g', c'], _ =>
    obtain ⟨l', k3, k4⟩ := k2 [2, 4] best rfl h1
    obtain rfl : l' = best := le_antisymm (h2 g' c' l' k3) k4
    obtain ⟨rfl, rfl⟩ := h3 (by
      intro x hx
      rw [hform]
      by_contra hle
      have e0 : x 0 = 0 := by nlinarith [sq_nonneg (x 0), sq_nonneg (x 1)]
      have e1 : x 1 = 0 := by nlinarith [sq_nonneg (x 0), sq_nonneg (x 1)]
      apply hx
      funext i
      fin_cases i
      · exact e0
      · exact e1) ⟨0, 1, by decide +kernel⟩ g' c' k3
    rfl

theorem exLine_runs : ∃ b', bootstrapGLS exLineLib (exArgs 2 true) exLineBoot = (b', .ok ()) := by
  have hr : diffRegime (markFit (exArgs 2 true) exLineBoot).dt (exArgs 2 true).startDt = .ok 1 := by
    have : (diffRegime (markFit (exArgs 2 true) exLineBoot).dt (exArgs 2 true).startDt).toOption = some 1 := by decide +kernel
    cases h : diffRegime (markFit (exArgs 2 true) exLineBoot).dt (exArgs 2 true).startDt with
    | error e => rw [h] at this; cases this
    | ok r => rw [h] at this; rw [Option.some.inj this]
  unfold bootstrapGLS
  rw [hr]
  simp only [fitFrom]
  have hc : (generateCovariance exLineLib (exArgs 2 true) (markFit (exArgs 2 true) exLineBoot) 1).2.toOption.map (·.1) = some 2 := by decide +kernel
  cases hg : generateCovariance exLineLib (exArgs 2 true) (markFit (exArgs 2 true) exLineBoot) 1 with
  | mk b2 o =>
  obtain ⟨⟨_, _, _, _, _, _, _, e1⟩, -⟩ := generateCovariance_pre hg
  rw [hg] at hc
  cases o with
  | error e => cases hc
  | ok mc =>
  obtain ⟨m, cov⟩ := mc
  obtain rfl : m = 2 := Option.some.inj hc
  have d1 : b2.dt.drop 1 = [2, 3] := by rw [e1]; rfl
  have d2 : b2.n.drop 1 = [5, 7] := by rw [e1]; rfl
  simp only
  rw [d1, d2]
  have hch : sampleChain exLineLib (exArgs 2 true) [2, 3] [5, 7] 2 cov = .ok [[3, 1 / 2], [0, 1 / 2], [5, 1 / 2], [2, 1 / 2]] := by
    have h1 : sampleChain exLineLib (exArgs 2 true) [2, 3] [5, 7] 2 cov =
        getChain 1 2 (runChain exLineLib (logLikelihood (0 : ℚ) (1 : Matrix (Fin 2) (Fin 2) ℚ) (fun i => [2, 3].getD i 0) (fun i => [5, 7].getD i 0)) 6 0
          (initialWalkers exLineLib 2 [2, 1])) := by
      unfold sampleChain
      simp only [bind, Except.bind]
      have hm : exLineLib.minimize (logLikelihood (0 : ℚ) (1 : Matrix (Fin 2) (Fin 2) ℚ) (fun i => [2, 3].getD i 0) (fun i => [5, 7].getD i 0))
          (startPoint (exArgs 2 true).fitIntercept (3 / 2)) = .ok [2, 1] := exLine_optimum
      have a1 : exLineLib.slogdet 2 cov = .ok 0 := rfl
      have a2 : exLineLib.pinvh 2 cov = .ok 1 := rfl
      have a3 : exLineLib.linregress [2, 3] [5, 7] = .ok (3 / 2) := rfl
      rw [a1, a2]
      simp only
      rw [if_neg (by decide), a3]
      simp only
      rw [hm]
      rfl
    rw [h1]
    have h2 : (getChain 1 2 (runChain exLineLib (logLikelihood (0 : ℚ) (1 : Matrix (Fin 2) (Fin 2) ℚ) (fun i => [2, 3].getD i 0) (fun i => [5, 7].getD i 0)) 6 0
          (initialWalkers exLineLib 2 [2, 1]))).toOption = some [[3, 1 / 2], [0, 1 / 2], [5, 1 / 2], [2, 1 / 2]] := by decide +kernel
    cases h : getChain 1 2 (runChain exLineLib (logLikelihood (0 : ℚ) (1 : Matrix (Fin 2) (Fin 2) ℚ) (fun i => [2, 3].getD i 0) (fun i => [5, 7].getD i 0)) 6 0
          (initialWalkers exLineLib 2 [2, 1])) with
    | error e => rw [h] at h2; cases h2
    | ok r => rw [h] at h2; rw [Option.some.inj h2]
  rw [hch]
  exact ⟨_, ok_of_outcome (by rfl)⟩

theorem exLine_runs_moved : ∃ b', bootstrapGLS exLineLib (exArgs 2 true) (addOffset 3 exLineBoot) = (b', .ok ()) := by
  have hr : diffRegime (markFit (exArgs 2 true) (addOffset 3 exLineBoot)).dt (exArgs 2 true).startDt = .ok 1 := by
    have : (diffRegime (markFit (exArgs 2 true) (addOffset 3 exLineBoot)).dt (exArgs 2 true).startDt).toOption = some 1 := by decide +kernel
    cases h : diffRegime (markFit (exArgs 2 true) (addOffset 3 exLineBoot)).dt (exArgs 2 true).startDt with
    | error e => rw [h] at this; cases this
    | ok r => rw [h] at this; rw [Option.some.inj this]
  unfold bootstrapGLS
  rw [hr]
  simp only [fitFrom]
  have hc : (generateCovariance exLineLib (exArgs 2 true) (markFit (exArgs 2 true) (addOffset 3 exLineBoot)) 1).2.toOption.map (·.1) = some 2 := by decide +kernel
  cases hg : generateCovariance exLineLib (exArgs 2 true) (markFit (exArgs 2 true) (addOffset 3 exLineBoot)) 1 with
  | mk b2 o =>
  obtain ⟨⟨_, _, _, _, _, _, _, e1⟩, -⟩ := generateCovariance_pre hg
  rw [hg] at hc
  cases o with
  | error e => cases hc
  | ok mc =>
  obtain ⟨m, cov⟩ := mc
  obtain rfl : m = 2 := Option.some.inj hc
  have d1 : b2.dt.drop 1 = [2, 3] := by rw [e1]; rfl
  have d2 : b2.n.drop 1 = [8, 10] := by
    rw [e1]
    show List.drop 1 (([9, 5, 7] : List ℚ).map (· + 3)) = [8, 10]
    decide +kernel
  simp only
  rw [d1, d2]
  have hch : sampleChain exLineLib (exArgs 2 true) [2, 3] [8, 10] 2 cov = .ok [[3, 1 / 2], [0, 1 / 2], [5, 1 / 2], [2, 1 / 2]] := by
    have h1 : sampleChain exLineLib (exArgs 2 true) [2, 3] [8, 10] 2 cov =
        getChain 1 2 (runChain exLineLib (logLikelihood (0 : ℚ) (1 : Matrix (Fin 2) (Fin 2) ℚ) (fun i => [2, 3].getD i 0) (fun i => [8, 10].getD i 0)) 6 0
          (initialWalkers exLineLib 2 [2, 4])) := by
      unfold sampleChain
      simp only [bind, Except.bind]
      have hm : exLineLib.minimize (logLikelihood (0 : ℚ) (1 : Matrix (Fin 2) (Fin 2) ℚ) (fun i => [2, 3].getD i 0) (fun i => [8, 10].getD i 0))
          (startPoint (exArgs 2 true).fitIntercept (3 / 2)) = .ok [2, 4] := exLine_optimum_moved
      have a1 : exLineLib.slogdet 2 cov = .ok 0 := rfl
      have a2 : exLineLib.pinvh 2 cov = .ok 1 := rfl
      have a3 : exLineLib.linregress [2, 3] [8, 10] = .ok (3 / 2) := rfl
      rw [a1, a2]
      simp only
      rw [if_neg (by decide), a3]
      simp only
      rw [hm]
      rfl
    rw [h1]
    have h2 : (getChain 1 2 (runChain exLineLib (logLikelihood (0 : ℚ) (1 : Matrix (Fin 2) (Fin 2) ℚ) (fun i => [2, 3].getD i 0) (fun i => [8, 10].getD i 0)) 6 0
          (initialWalkers exLineLib 2 [2, 4]))).toOption = some [[3, 1 / 2], [0, 1 / 2], [5, 1 / 2], [2, 1 / 2]] := by decide +kernel
    cases h : getChain 1 2 (runChain exLineLib (logLikelihood (0 : ℚ) (1 : Matrix (Fin 2) (Fin 2) ℚ) (fun i => [2, 3].getD i 0) (fun i => [8, 10].getD i 0)) 6 0
          (initialWalkers exLineLib 2 [2, 4])) with
    | error e => rw [h] at h2; cases h2
    | ok r => rw [h] at h2; rw [Option.some.inj h2]
  rw [hch]
  exact ⟨_, ok_of_outcome (by rfl)⟩


theorem pd_one_two : PD (1 : Matrix (Fin 2) (Fin 2) ℚ) := by
  intro x hx
  have hform : ∑ i, ∑ j, x i * (1 : Matrix (Fin 2) (Fin 2) ℚ) i j * x j = x 0 ^ 2 + x 1 ^ 2 := by
    simp [Fin.sum_univ_two, Matrix.one_apply]
    ring
  rw [hform]
  by_contra hle
  have e0 : x 0 = 0 := by nlinarith [sq_nonneg (x 0), sq_nonneg (x 1)]
  have e1 : x 1 = 0 := by nlinarith [sq_nonneg (x 0), sq_nonneg (x 1)]
  apply hx
  funext i
  fin_cases i
  · exact e0
  · exact e1

/-- The hypotheses of `C126_fit` hold together: both fits succeed, with the same library routines. -/
example : (∃ b1, bootstrapGLS exLineLib (exArgs 2 true) exLineBoot = (b1, .ok ())) ∧ (∃ b2, bootstrapGLS exLineLib (exArgs 2 true) (addOffset 3 exLineBoot) = (b2, .ok ())) ∧
    FindsMaximum exLineLib.minimize ∧ exLineBoot.dt.Pairwise (· < ·) ∧ 2 ≤ (exLineBoot.dt.filter fun x => decide ((exArgs 2 true).startDt ≤ x)).length :=
  ⟨exLine_runs, exLine_runs_moved, exactOptimum_finds, by decide +kernel, by decide +kernel⟩

/-- Two points: the data `(1, 2), (2, 4)`, and the same with the offset 3.  The line fitted with intercept has gradient 2 in both cases. -/
example : BestLine (logLikelihood (0 : ℚ) (1 : Matrix (Fin 2) (Fin 2) ℚ) (fun i => (i : ℚ) + 1) fun i => 2 * ((i : ℚ) + 1) + 3) 2 (0 + 3) 0 ∧
    BestLine (logLikelihood (0 : ℚ) (1 : Matrix (Fin 2) (Fin 2) ℚ) (fun i => (i : ℚ) + 1) fun i => 2 * ((i : ℚ) + 1)) 2 0 0 := by
  have h : BestLine (logLikelihood (0 : ℚ) (1 : Matrix (Fin 2) (Fin 2) ℚ) (fun i => (i : ℚ) + 1) fun i => 2 * ((i : ℚ) + 1)) 2 0 0 := by
    refine ⟨by decide +kernel, fun g c l hl => ?_⟩
    unfold logLikelihood at hl
    split at hl
    · cases hl
    · simp only [Option.some.injEq] at hl
      rw [← hl]
      simp [Matrix.one_mulVec, dotProduct, Fin.sum_univ_two]
      nlinarith [mul_self_nonneg (straightLine (0 + 1 : ℚ) [g, c] - 2), mul_self_nonneg (straightLine (1 + 1 : ℚ) [g, c] - 4)]
  exact ⟨(C126_best_line 0 1 _ _ 3 2 0 0).mpr h, h⟩

/-- **C126, witness.** Without an intercept the offset 3 changes the best gradient of the same data from 2 to 19 / 5, and D with it. -/
theorem C126_ray_witness : BestRay (logLikelihood (0 : ℚ) (1 : Matrix (Fin 2) (Fin 2) ℚ) (fun i => (i : ℚ) + 1) fun i => 2 * ((i : ℚ) + 1)) 2 0 ∧
    BestRay (logLikelihood (0 : ℚ) (1 : Matrix (Fin 2) (Fin 2) ℚ) (fun i => (i : ℚ) + 1) fun i => 2 * ((i : ℚ) + 1) + 3) (19 / 5) (-(9 / 10)) := by
  refine ⟨⟨by decide +kernel, fun g l hl => ?_⟩, ⟨by decide +kernel, fun g l hl => ?_⟩⟩
  all_goals
    unfold logLikelihood at hl
    split at hl
    · cases hl
    · simp only [Option.some.injEq] at hl
      rw [← hl]
      simp [Matrix.one_mulVec, dotProduct, Fin.sum_univ_two, straightLine]
      nlinarith [sq_nonneg (g - 2), sq_nonneg (g - 19 / 5)]

/-- `C126_likelihood` with data on a curve and a line that is neither of the two. -/
example : logLikelihood (0 : ℚ) (1 : Matrix (Fin 2) (Fin 2) ℚ) (fun i => (i : ℚ) + 1) (fun i => ((i : ℚ) ^ 2 + (-1 * ((i : ℚ) + 1) + 3))) [2 + -1, 5 + 3] =
    logLikelihood (0 : ℚ) (1 : Matrix (Fin 2) (Fin 2) ℚ) (fun i => (i : ℚ) + 1) (fun i => (i : ℚ) ^ 2) [2, 5] :=
  C126_likelihood 0 1 _ _ (-1) 3 2 5 (by norm_num) (by norm_num)

/-- `C126_no_intercept` for the data of `C126_ray_witness`. -/
example : (19 / 5 : ℚ) = 2 + 3 * (form (1 : Matrix (Fin 2) (Fin 2) ℚ) (fun i => (i : ℚ) + 1) (fun _ => 1) /
    form (1 : Matrix (Fin 2) (Fin 2) ℚ) (fun i => (i : ℚ) + 1) fun i => (i : ℚ) + 1) :=
  (C126_no_intercept 0 1 (by intro i j; rw [Matrix.one_apply, Matrix.one_apply]; simp [eq_comm]) pd_one_two _ _ ⟨0, by norm_num⟩ 3 2 (19 / 5) _ _ (by norm_num) (by norm_num)
    C126_ray_witness.1 C126_ray_witness.2).2

end Kinisi
