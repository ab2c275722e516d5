import Verif.Lemmas.Units
import Verif.Props.Results

/-!
# C87, C88: data on a line; units of length and time
-/

set_option linter.unusedSectionVars false
set_option linter.unusedVariables false

namespace Kinisi
open Spec
variable {K : Type} [Field K] [LinearOrder K] [IsStrictOrderedRing K] [FloorRing K]

/-! ## C87 -/

theorem normalEquations_exact {m : ℕ} (P : Matrix (Fin m) (Fin m) K) (t y : Fin m → K) (g c : K) (h : ∀ i, y i = g * t i + c) :
    NormalEquations P t y g c := by
  have hz : lineResidual t y g c = fun _ => 0 := by
    funext i; unfold lineResidual; rw [h i]; ring
  unfold NormalEquations
  rw [hz]
  unfold form
  simp

/-- **C87, likelihood.** If the data lie on a line with non-negative gradient, this line has the highest log-likelihood, whatever the (positive semi-definite) weights; with positive definite weights and
two different intervals it is the only one. -/
theorem C87_exact_line {m : ℕ} (logdet : K) (P : Matrix (Fin m) (Fin m) K) (hs : ∀ i j, P i j = P j i) (hP : PSD P) (t y : Fin m → K) (g c : K)
    (hg : 0 ≤ g) (h : ∀ i, y i = g * t i + c) :
    ∃ best, logLikelihood logdet P t y [g, c] = some best ∧
      (∀ g' c' l, logLikelihood logdet P t y [g', c'] = some l → l ≤ best) ∧
      (PD P → (∃ i j, t i ≠ t j) → ∀ g' c', logLikelihood logdet P t y [g', c'] = some best → g' = g ∧ c' = c) :=
  C45_maximum logdet P hs hP t y g c hg (normalEquations_exact P t y g c h)

/-- An optimiser that only returns maxima: a returned point has the requested dimension and no other point of this dimension has a higher value. -/
def FindsMaximum (minimize : (List K → Option K) → List K → PyM (List K)) : Prop :=
  ∀ f x0 ml, minimize f x0 = .ok ml → ml.length = x0.length ∧ ∀ θ l, θ.length = x0.length → f θ = some l → ∃ l', f ml = some l' ∧ l ≤ l'

/-- **C87, fit.** If the fitted part of the curve lies on a line with non-negative gradient, the weights are positive definite, two fitted intervals differ and the optimiser returns a
maximum, then the sampling starts from exactly this line: walker `w` starts at gradient and intercept of the line, each changed by a thousandth of itself times a normal deviate. -/
theorem C87_fit {L : GlsLib K} {a : GlsArgs K} {b b' : Boot K} (h : bootstrapGLS L a b = (b', .ok ())) (hi : a.fitIntercept = true)
    (hmin : FindsMaximum L.minimize) (hinv : ∀ m A P, L.pinvh m A = .ok P → (∀ i j, P i j = P j i) ∧ PD P)
    (hs : b.dt.Pairwise (· < ·)) (hn : b.n.length = b.dt.length) (g c : K) (hg : 0 ≤ g)
    (hline : ∀ (k : ℕ) (t y : K), b.dt[k]? = some t → b.n[k]? = some y → a.startDt ≤ t → y = g * t + c)
    (h2 : 2 ≤ (b.dt.filter fun x => decide (a.startDt ≤ x)).length) :
    ∃ ll chain, b'.flatchain = some chain ∧
      getChain a.nBurn a.thin (runChain L ll (a.nSamples + a.nBurn) 0 ((List.range a.nWalkers).map fun w =>
        [g + g * (1 / 1000) * L.randn w 0, c + c * (1 / 1000) * L.randn w 1])) = .ok chain := by
  have hs' : b.dt.Pairwise (· ≤ ·) := hs.imp fun h => le_of_lt h
  obtain ⟨-, -, -, -, r, m, cov, chain, gr, b1, b2, e1, -, e3, e4, e5, e6, -⟩ := bootstrapGLS_ok h
  obtain ⟨logdet, P, slope, ml, q1, q2, q3, q4, q5, q6, q7⟩ := sampleChain_ok e5
  obtain ⟨hsym, hpd⟩ := hinv m cov P q2
  have hpsd : PSD P := by
    intro x
    by_cases hx : x = 0
    · subst hx; simp
    · exact (hpd x hx).le
  obtain ⟨hr, r1, r2⟩ := diffRegime_ok_iff.mp e1
  -- the fitted points
  have hpt : ∀ i : Fin m, (b.n.drop r).getD i 0 = g * (b.dt.drop r).getD i 0 + c := by
    intro i
    have hi1 : (i : ℕ) < (b.dt.drop r).length := by rw [q3]; exact i.2
    have hi2 : r + i < b.dt.length := by rw [List.length_drop] at hi1; omega
    rw [List.getD_eq_getElem?_getD, List.getD_eq_getElem?_getD, List.getElem?_drop, List.getElem?_drop,
      List.getElem?_eq_getElem hi2, List.getElem?_eq_getElem (by omega)]
    simp only [Option.getD_some]
    refine hline (r + i) _ _ (List.getElem?_eq_getElem hi2) (List.getElem?_eq_getElem (by omega)) ?_
    refine le_trans r1 ?_
    rcases Nat.eq_or_lt_of_le (Nat.le_add_right r i) with h0 | h0
    · simp only [← h0]; exact le_refl _
    · exact List.pairwise_iff_getElem.mp hs' r (r + i) hr hi2 h0
  have hm2 : 2 ≤ m := by
    rw [← q3, ← fittedPart_drop hs' e1 b.dt rfl]
    unfold fittedPart
    rw [List.length_map]
    have : b.dt = (b.dt.zip b.dt).map Prod.fst := by rw [List.map_fst_zip]; exact le_refl _
    conv at h2 => rw [this, List.filter_map, List.length_map]
    exact h2
  have hdiff : ∃ i j : Fin m, (b.dt.drop r).getD i 0 ≠ (b.dt.drop r).getD j 0 := by
    refine ⟨⟨0, by omega⟩, ⟨1, by omega⟩, ?_⟩
    have hl : 1 < (b.dt.drop r).length := by omega
    simp only [List.getD_eq_getElem?_getD, List.getElem?_eq_getElem hl, List.getElem?_eq_getElem (show 0 < (b.dt.drop r).length by omega), Option.getD_some]
    exact ne_of_lt (List.pairwise_iff_getElem.mp (hs.sublist (List.drop_sublist _ _)) 0 1 (by omega) hl (by omega))
  obtain ⟨best, k1, k2, k3⟩ := C87_exact_line logdet P hsym hpsd (fun i : Fin m => (b.dt.drop r).getD i 0) (fun i : Fin m => (b.n.drop r).getD i 0) g c hg hpt
  have hst : (startPoint a.fitIntercept slope).length = 2 := by unfold startPoint; rw [hi]; simp
  obtain ⟨m1, m2⟩ := hmin _ _ _ q6
  rw [hst] at m1 m2
  obtain ⟨l', m3, m4⟩ := m2 [g, c] best rfl k1
  match ml, m1 with
  | [g', c'], _ =>
    have hle := k2 g' c' l' m3
    obtain rfl : l' = best := le_antisymm hle m4
    obtain ⟨rfl, rfl⟩ := k3 hpd hdiff g' c' m3
    refine ⟨logLikelihood logdet P (fun i : Fin m => (b.dt.drop r).getD i 0) (fun i : Fin m => (b.n.drop r).getD i 0), chain, e6, ?_⟩
    have hw : initialWalkers L a.nWalkers [g', c'] = (List.range a.nWalkers).map fun w =>
        [g' + g' * (1 / 1000) * L.randn w 0, c' + c' * (1 / 1000) * L.randn w 1] := rfl
    rw [← hw]
    exact q7

/-- An optimiser that returns a maximum if there is one. -/
noncomputable def exactOptimum (f : List K → Option K) (x0 : List K) : PyM (List K) := by
  classical
  exact if h : ∃ ml, ml.length = x0.length ∧ ∀ θ l, θ.length = x0.length → f θ = some l → ∃ l', f ml = some l' ∧ l ≤ l'
    then .ok h.choose else .error .external

theorem exactOptimum_finds : FindsMaximum (exactOptimum : (List K → Option K) → List K → PyM (List K)) := by
  intro f x0 ml h
  unfold exactOptimum at h
  split_ifs at h with hex
  rw [← Except.ok.inj h]
  exact hex.choose_spec

/-- Routines for the example: identity weights, exact optimum. -/
noncomputable def exLineLib : GlsLib ℚ := { exLib with minimize := exactOptimum, pinvh := fun _ _ => .ok 1 }

/-- Data on the line `2 t + 1` from the second interval on. -/
def exLineBoot : Boot ℚ := { exBoot with n := [9, 5, 7] }

theorem exLine_optimum : exactOptimum (logLikelihood (0 : ℚ) (1 : Matrix (Fin 2) (Fin 2) ℚ) (fun i => [2, 3].getD i 0) (fun i => [5, 7].getD i 0))
    (startPoint true (3 / 2)) = .ok [2, 1] := by
  have hform : ∀ x : Fin 2 → ℚ, ∑ i, ∑ j, x i * (1 : Matrix (Fin 2) (Fin 2) ℚ) i j * x j = x 0 ^ 2 + x 1 ^ 2 := by
    intro x
    simp [Fin.sum_univ_two, Matrix.one_apply]
    ring
  obtain ⟨best, h1, h2, h3⟩ := C87_exact_line (0 : ℚ) (1 : Matrix (Fin 2) (Fin 2) ℚ) (by intro i j; rw [Matrix.one_apply, Matrix.one_apply]; simp [eq_comm])
    (by intro x; rw [hform]; positivity) (fun i => [2, 3].getD i 0) (fun i => [5, 7].getD i 0) 2 1 (by norm_num) (by decide +kernel)
  have hex : ∃ ml : List ℚ, ml.length = (startPoint true (3 / 2 : ℚ)).length ∧ ∀ θ l, θ.length = (startPoint true (3 / 2 : ℚ)).length →
      logLikelihood (0 : ℚ) (1 : Matrix (Fin 2) (Fin 2) ℚ) (fun i => [2, 3].getD i 0) (fun i => [5, 7].getD i 0) θ = some l →
      ∃ l', logLikelihood (0 : ℚ) (1 : Matrix (Fin 2) (Fin 2) ℚ) (fun i => [2, 3].getD i 0) (fun i => [5, 7].getD i 0) ml = some l' ∧ l ≤ l' := by
    refine ⟨[2, 1], rfl, fun θ l hθ hl => ⟨best, h1, ?_⟩⟩
    match θ, hθ with
    | [g', c'], _ => exact h2 g' c' l hl
  unfold exactOptimum
  rw [dif_pos hex]
  have hsp := hex.choose_spec
  congr 1
  generalize hex.choose = ml at hsp
  obtain ⟨k1, k2⟩ := hsp
  match ml, k1 with
  | [g', c'], _ =>
    obtain ⟨l', k3, k4⟩ := k2 [2, 1] best rfl h1
    obtain rfl : l' = best := le_antisymm (h2 g' c' l' k3) k4
    obtain ⟨rfl, rfl⟩ := h3 (by
      intro x hx
      rw [hform]
      by_contra hle
      have e0 : x 0 = 0 := by nlinarith [sq_nonneg (x 0), sq_nonneg (x 1)]
      have e1 : x 1 = 0 := by nlinarith [sq_nonneg (x 0), sq_nonneg (x 1)]
      apply hx
      funext i
      fin_cases i
      · exact e0
      · exact e1) ⟨0, 1, by decide +kernel⟩ g' c' k3
    rfl

/-- The hypotheses of `C87_fit` and (in `exLine_optimum`) `C87_exact_line` hold for an example with a successful fit. -/
example : (∃ b', bootstrapGLS exLineLib (exArgs 2 true) exLineBoot = (b', .ok ())) ∧ FindsMaximum exLineLib.minimize ∧
    exLineBoot.dt.Pairwise (· < ·) ∧ 2 ≤ (exLineBoot.dt.filter fun x => decide ((exArgs 2 true).startDt ≤ x)).length := by
  refine ⟨?_, exactOptimum_finds, by decide +kernel, by decide +kernel⟩
  have hr : diffRegime (markFit (exArgs 2 true) exLineBoot).dt (exArgs 2 true).startDt = .ok 1 := by
    have : (diffRegime (markFit (exArgs 2 true) exLineBoot).dt (exArgs 2 true).startDt).toOption = some 1 := by decide +kernel
    cases h : diffRegime (markFit (exArgs 2 true) exLineBoot).dt (exArgs 2 true).startDt with
    | error e => rw [h] at this; cases this
    | ok r => rw [h] at this; rw [Option.some.inj this]
  unfold bootstrapGLS
  rw [hr]
  simp only [fitFrom]
  have hc : (generateCovariance exLineLib (exArgs 2 true) (markFit (exArgs 2 true) exLineBoot) 1).2.toOption.map (·.1) = some 2 := by decide +kernel
  cases hg : generateCovariance exLineLib (exArgs 2 true) (markFit (exArgs 2 true) exLineBoot) 1 with
  | mk b2 o =>
  obtain ⟨⟨_, _, _, _, _, _, _, e1⟩, -⟩ := generateCovariance_pre hg
  rw [hg] at hc
  cases o with
  | error e => cases hc
  | ok mc =>
  obtain ⟨m, cov⟩ := mc
  obtain rfl : m = 2 := Option.some.inj hc
  have d1 : b2.dt.drop 1 = [2, 3] := by rw [e1]; rfl
  have d2 : b2.n.drop 1 = [5, 7] := by rw [e1]; rfl
  simp only
  rw [d1, d2]
  have hch : sampleChain exLineLib (exArgs 2 true) [2, 3] [5, 7] 2 cov = .ok [[3, 1 / 2], [0, 1 / 2], [5, 1 / 2], [2, 1 / 2]] := by
    have h1 : sampleChain exLineLib (exArgs 2 true) [2, 3] [5, 7] 2 cov =
        getChain 1 2 (runChain exLineLib (logLikelihood (0 : ℚ) (1 : Matrix (Fin 2) (Fin 2) ℚ) (fun i => [2, 3].getD i 0) (fun i => [5, 7].getD i 0)) 6 0
          (initialWalkers exLineLib 2 [2, 1])) := by
      unfold sampleChain
      simp only [bind, Except.bind]
      have hm : exLineLib.minimize (logLikelihood (0 : ℚ) (1 : Matrix (Fin 2) (Fin 2) ℚ) (fun i => [2, 3].getD i 0) (fun i => [5, 7].getD i 0))
          (startPoint (exArgs 2 true).fitIntercept (3 / 2)) = .ok [2, 1] := exLine_optimum
      have a1 : exLineLib.slogdet 2 cov = .ok 0 := rfl
      have a2 : exLineLib.pinvh 2 cov = .ok 1 := rfl
      have a3 : exLineLib.linregress [2, 3] [5, 7] = .ok (3 / 2) := rfl
      rw [a1, a2]
      simp only
      rw [if_neg (by decide), a3]
      simp only
      rw [hm]
      rfl
    rw [h1]
    have h2 : (getChain 1 2 (runChain exLineLib (logLikelihood (0 : ℚ) (1 : Matrix (Fin 2) (Fin 2) ℚ) (fun i => [2, 3].getD i 0) (fun i => [5, 7].getD i 0)) 6 0
          (initialWalkers exLineLib 2 [2, 1]))).toOption = some [[3, 1 / 2], [0, 1 / 2], [5, 1 / 2], [2, 1 / 2]] := by decide +kernel
    cases h : getChain 1 2 (runChain exLineLib (logLikelihood (0 : ℚ) (1 : Matrix (Fin 2) (Fin 2) ℚ) (fun i => [2, 3].getD i 0) (fun i => [5, 7].getD i 0)) 6 0
          (initialWalkers exLineLib 2 [2, 1])) with
    | error e => rw [h] at h2; cases h2
    | ok r => rw [h] at h2; rw [Option.some.inj h2]
  rw [hch]
  exact ⟨_, ok_of_outcome (by rfl)⟩

/-! ## C88 -/

theorem matrixRows_smul (c : K) {m : ℕ} (A : Matrix (Fin m) (Fin m) K) :
    matrixRows (c • A) = (matrixRows A).map (List.map (Option.map (c * ·))) := by
  unfold matrixRows
  rw [List.map_map]
  apply List.map_congr_left
  intro i _
  simp only [Function.comp]
  rw [List.map_map]
  rfl

/-- The data is not changed by the first steps of the fit. -/
theorem sameCurve_mark {ell tau : K} {b b' : Boot K} (h : SameCurve ell tau b b') (a a' : GlsArgs K) : SameCurve ell tau (markFit a b) (markFit a' b') :=
  ⟨h.dt, h.n, h.v, h.nO, h.dims⟩

/-- **C88.** In other units of length and time (`ell` is the factor of the squared lengths, `tau` that of the times), with library routines that behave in the same way, the fit has the same outcome; gradient samples are
multiplied by `ell / tau`, intercept samples by `ell`, the covariance matrix by `ell²`. -/
theorem C88_fit {ell tau : K} (hl : 0 < ell) (ht : 0 < tau) {L L' : GlsLib K} (hL : SameLib ell tau L L') {b b' : Boot K}
    (hb : SameCurve ell tau b b') (a : GlsArgs K) :
    (bootstrapGLS L' { a with startDt := tau * a.startDt } b').2 = (bootstrapGLS L a b).2 ∧
    ∀ b1, bootstrapGLS L a b = (b1, .ok ()) → ∃ b1', bootstrapGLS L' { a with startDt := tau * a.startDt } b' = (b1', .ok ()) ∧
      b1'.gradient = b1.gradient.map (List.map (ell / tau * ·)) ∧ b1'.intercept = b1.intercept.map (List.map (ell * ·)) ∧
      b1'.flatchain = b1.flatchain.map (List.map (newUnits ell tau)) ∧
      b1'.covariance = b1.covariance.map (List.map (List.map (Option.map (ell ^ 2 * ·)))) ∧ b1'.dims = b1.dims := by
  obtain ⟨a', ha'⟩ : ∃ a', a' = { a with startDt := tau * a.startDt } := ⟨_, rfl⟩
  rw [← ha']
  have hreg : diffRegime b'.dt a'.startDt = diffRegime b.dt a.startDt := by
    rw [ha', hb.dt]; exact diffRegime_units ht _ _
  have hfi : a'.fitIntercept = a.fitIntercept := by rw [ha']
  unfold bootstrapGLS
  rw [show (markFit a' b').dt = b'.dt from rfl, show (markFit a b).dt = b.dt from rfl, hreg]
  cases diffRegime b.dt a.startDt with
  | error e => exact ⟨rfl, fun b1 h => by cases (Prod.mk.inj h).2⟩
  | ok r =>
  simp only [fitFrom]
  have hcov := generateCovariance_units hl ht hL (sameCurve_mark hb a a') (a := a) (a' := a') (by rw [ha']) (by rw [ha']) r
  cases h1 : generateCovariance L a (markFit a b) r with
  | mk b2 o =>
  cases h2 : generateCovariance L' a' (markFit a' b') r with
  | mk b2' o' =>
  obtain ⟨⟨_, _, _, _, _, _, _, p1⟩, -⟩ := generateCovariance_pre h1
  obtain ⟨⟨_, _, _, _, _, _, _, p2⟩, -⟩ := generateCovariance_pre h2
  rw [h1, h2] at hcov
  simp only at hcov
  subst hcov
  cases o with
  | error e => exact ⟨rfl, fun b1 h => by cases (Prod.mk.inj h).2⟩
  | ok mc =>
  obtain ⟨m, cov⟩ := mc
  simp only [Except.map]
  have d1 : b2'.dt.drop r = (b2.dt.drop r).map (tau * ·) := by
    rw [p1, p2, List.map_drop]
    exact congrArg (List.drop r) hb.dt
  have d2 : b2'.n.drop r = (b2.n.drop r).map (ell * ·) := by
    rw [p1, p2, List.map_drop]
    exact congrArg (List.drop r) hb.n
  have d3 : b2'.dims = b2.dims := by rw [p1, p2]; exact hb.dims
  rw [d1, d2, sampleChain_units hl ht hL (a := a) (a' := a') (by rw [ha']; exact ⟨rfl, rfl, rfl, rfl, rfl⟩)]
  cases sampleChain L a (b2.dt.drop r) (b2.n.drop r) m cov with
  | error e => exact ⟨rfl, fun b1 h => by cases (Prod.mk.inj h).2⟩
  | ok chain =>
  simp only [Except.map, storeChain]
  obtain ⟨k1, k2⟩ := chainColumn_units hl ht hL chain
  rw [k1, k2, hfi]
  cases chainColumn L 0 chain with
  | error e => exact ⟨rfl, fun b1 h => by cases (Prod.mk.inj h).2⟩
  | ok g =>
  simp only [Except.map]
  cases a.fitIntercept with
  | false =>
    rw [if_neg Bool.false_ne_true, if_neg Bool.false_ne_true]
    refine ⟨rfl, fun b1 h => ⟨_, rfl, ?_⟩⟩
    rw [← (Prod.mk.inj h).1]
    exact ⟨rfl, rfl, rfl, congrArg some (matrixRows_smul _ cov), d3⟩
  | true =>
    rw [if_pos rfl, if_pos rfl]
    cases chainColumn L 1 chain with
    | error e => exact ⟨rfl, fun b1 h => by cases (Prod.mk.inj h).2⟩
    | ok c =>
      refine ⟨rfl, fun b1 h => ⟨_, rfl, ?_⟩⟩
      rw [← (Prod.mk.inj h).1]
      exact ⟨rfl, rfl, rfl, congrArg some (matrixRows_smul _ cov), d3⟩

/-- **C88, diffusion coefficient.** The samples of D are multiplied by `ell / tau`. -/
theorem C88_D {ell tau : K} (hl : 0 < ell) (ht : 0 < tau) {L L' : GlsLib K} (hL : SameLib ell tau L L') {b b' : Boot K}
    (hb : SameCurve ell tau b b') (a : GlsArgs K) {b1 : Boot K} (h : diffusion L a b = (b1, .ok ())) :
    ∃ b1' d, diffusion L' { a with startDt := tau * a.startDt } b' = (b1', .ok ()) ∧ b1.diffusionCoefficient = some d ∧
      b1'.diffusionCoefficient = some (d.map (ell / tau * ·)) := by
  obtain ⟨b2, g, h1, h2, rfl⟩ := diffusion_ok h
  obtain ⟨b2', e1, e2, -, -, -, e3⟩ := (C88_fit hl ht hL hb a).2 b2 h1
  have hsc : scaled L (20000 * (b2.dims : K)) b2.gradient = .ok (g.map fun x => x / (20000 * (b2.dims : K))) := by
    unfold diffusion at h
    rw [h1] at h
    simp only at h
    cases hs : scaled L (20000 * (b2.dims : K)) b2.gradient with
    | error e => rw [hs] at h; cases (Prod.mk.inj h).2
    | ok d =>
      obtain ⟨s, q1, rfl⟩ := scaled_ok hs
      obtain rfl := Option.some.inj (h2.symm.trans q1)
      rfl
  have hmap : (g.map (ell / tau * ·)).map (fun x => x / (20000 * (b2.dims : K))) = (g.map fun x => x / (20000 * (b2.dims : K))).map (ell / tau * ·) := by
    rw [List.map_map, List.map_map]
    apply List.map_congr_left
    intro x _
    simp only [Function.comp]
    ring
  have hsc' : scaled L' (20000 * (b2'.dims : K)) b2'.gradient = .ok ((g.map fun x => x / (20000 * (b2.dims : K))).map (ell / tau * ·)) := by
    unfold scaled at hsc ⊢
    rw [h2] at hsc
    rw [e2, e3, h2]
    simp only [Option.map_some, samplesOf] at hsc ⊢
    split_ifs at hsc with hc
    rw [if_neg hc, hmap, hL.dist _ _ (div_pos hl ht)]
    cases hd : L.dist (g.map fun x => x / (20000 * (b2.dims : K))) with
    | error e => rw [hd] at hsc; cases hsc
    | ok u => rfl
  refine ⟨{ b2' with diffusionCoefficient := some ((g.map fun x => x / (20000 * (b2.dims : K))).map (ell / tau * ·)) }, _, ?_, rfl, rfl⟩
  unfold diffusion
  rw [e1]
  simp only
  rw [hsc']

/-- Routines that do not depend on the units: eigenvalues and inverse of a diagonal matrix, ... -/
def exUnitLib (ell tau : ℚ) : GlsLib ℚ where
  curveFit _ t v := match t, v with
    | t0 :: _, some v0 :: _ => .ok (v0 / t0 ^ 2)
    | _, _ => .error .external
  eig _ A := .ok (fun k => A k k, 1)
  covNearest _ A := .ok A
  slogdet _ _ := .ok 0
  pinvh _ A := .ok (Matrix.diagonal fun i => (A i i)⁻¹)
  linregress t y := match t, y with
    | t0 :: _ :: _, y0 :: _ => .ok (y0 / t0)
    | _, _ => .error .valueError
  minimize _ x := .ok (newUnits ell tau ([5, 1 / 2].take x.length))
  randn w k := w + k
  emceeCheck _ _ _ := .ok ()
  propose s w := newUnits ell tau [(s : ℚ) + 1 - 3 * w, 1 / 2]
  threshold _ _ := -1000
  dist l := if l = [] then .error .indexError else .ok ()

/-- The hypothesis of C88 on the routines, for any units. -/
theorem exUnitLib_same (ell tau : ℚ) (hl : 0 < ell) (ht : 0 < tau) : SameLib ell tau (exUnitLib 1 1) (exUnitLib ell tau) := by
  have hid : ∀ θ : List ℚ, newUnits 1 1 θ = θ := by
    intro θ
    cases θ with
    | nil => rfl
    | cons g rest => simp [newUnits]
  have ht' := ht.ne'
  have hl' := hl.ne'
  refine ⟨?_, ?_, ?_, ?_, ?_, ?_, ?_, rfl, ?_, ?_, rfl, ?_⟩
  · intro n t v
    match t, v with
    | [], _ => rfl
    | _ :: _, [] => rfl
    | _ :: _, none :: _ => rfl
    | t0 :: t, some v0 :: v =>
      simp only [exUnitLib, List.map_cons, Option.map_some, Except.map, Except.ok.injEq]
      field_simp
  · intro m A; rfl
  · intro m A; rfl
  · intro m; exact ⟨0, fun A => by simp [exUnitLib, Except.map]⟩
  · intro m A
    simp only [exUnitLib, Except.map, Except.ok.injEq]
    ext i j
    simp only [Matrix.diagonal_apply, Matrix.smul_apply, smul_eq_mul]
    split_ifs with h
    · rw [mul_inv]
    · simp
  · intro t y
    match t, y with
    | [], _ => rfl
    | [_], _ => rfl
    | _ :: _ :: _, [] => rfl
    | t0 :: t1 :: t, y0 :: y =>
      simp only [exUnitLib, List.map_cons, Except.map, Except.ok.injEq]
      by_cases h0 : t0 = 0
      · subst h0; simp
      · field_simp
  · intro f f' x x' δ _ hx
    simp only [exUnitLib, Except.map, hx, hid]
  · intro nw nd pos; rfl
  · intro s w
    simp only [exUnitLib, hid]
  · intro c l _
    simp only [exUnitLib]
    cases l <;> simp

/-- The hypotheses of `C88_fit` hold for the example data in ps and Å² and in fs and nm² (`ell = 1/100`, `tau = 1000`), and the fit succeeds. -/
example : SameLib (1 / 100 : ℚ) 1000 (exUnitLib 1 1) (exUnitLib (1 / 100) 1000) ∧
    SameCurve (1 / 100) 1000 exBoot { exBoot with dt := [1000, 2000, 3000], n := [2 / 100, 5 / 100, 6 / 100], v := [some (1 / 10000), some (2 / 10000), some (3 / 10000)] } ∧
    (diffusion (exUnitLib 1 1) (exArgs 2 true) exBoot).2.toOption = some () ∧
    (diffusion (exUnitLib 1 1) (exArgs 2 true) exBoot).1.gradient = some [3, 0, 5, 2] := by
  refine ⟨exUnitLib_same _ _ (by norm_num) (by norm_num), ⟨?_, ?_, ?_, rfl, rfl⟩, ?_, ?_⟩ <;> decide +kernel

end Kinisi
