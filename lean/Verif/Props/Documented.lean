import Verif.Spec.Documented
import Verif.Props.History
import Verif.Props.Resample
import Verif.Lemmas.Runs

/-!
C129: arguments that are left out take the documented values.
-/

set_option linter.unusedSectionVars false
set_option linter.unusedVariables false

namespace Kinisi

open Spec

variable {K : Type} [Field K] [LinearOrder K] [IsStrictOrderedRing K] [FloorRing K] {G : Type}

/-- The call of a fit with every keyword argument given. -/
def fitWith (s c : K) (d : FitDefaults) : GlsArgs K :=
  ⟨s, c, d.model, d.fitIntercept, d.nSamples, d.nWalkers, d.nBurn, d.thin⟩

/-- **C129, what holds for the fit.** A fit with only `start_dt` and `cond_max` given is the fit with the documented values for all keyword arguments,
except that `model` is `False`: the fit succeeds or fails alike and leaves the same object.  Missing: `model` is documented as `True`, see
`C129_violated`. -/
theorem C129_fit_partial (L : GlsLib K) (b : Boot K) (s c : K) :
    bootstrapGLS L { startDt := s, condMax := c } b = bootstrapGLS L (fitWith s c { documentedFit with model := false }) b := rfl

/-- The variances behind the covariance matrix of a successful fit in which `model` is left out are the estimated ones; those of the random walk model
are not used. -/
theorem C129_model (L : GlsLib K) (b b' : Boot K) (s c : K) (fi : Bool) (nS nW nB th : ℕ)
    (h : bootstrapGLS L { startDt := s, condMax := c, fitIntercept := fi, nSamples := nS, nWalkers := nW, nBurn := nB, thin := th } b = (b', .ok ())) :
    b'.model = some (!documentedFit.model) ∧ ∃ r, diffRegime b.dt s = .ok r ∧ b'.modelV = some (b.v.drop r) := by
  obtain ⟨-, -, hm, -, -⟩ := bootstrapGLS_ok h
  refine ⟨hm, ?_⟩
  unfold bootstrapGLS at h
  rw [show (markFit ({ startDt := s, condMax := c, fitIntercept := fi, nSamples := nS, nWalkers := nW, nBurn := nB, thin := th } : GlsArgs K) b).dt = b.dt from rfl] at h
  cases hr : diffRegime b.dt s with
  | error e => rw [hr] at h; cases (Prod.mk.inj h).2
  | ok r =>
  rw [hr] at h
  refine ⟨r, rfl, ?_⟩
  simp only [fitFrom] at h
  cases hg : generateCovariance L { startDt := s, condMax := c, fitIntercept := fi, nSamples := nS, nWalkers := nW, nBurn := nB, thin := th } (markFit { startDt := s, condMax := c, fitIntercept := fi, nSamples := nS, nWalkers := nW, nBurn := nB, thin := th } b) r with
  | mk b2 o =>
  rw [hg] at h
  have h2 : b2.modelV = some (b.v.drop r) := by
    unfold generateCovariance at hg
    rw [show chooseVariances L ({ startDt := s, condMax := c, fitIntercept := fi, nSamples := nS, nWalkers := nW, nBurn := nB, thin := th } : GlsArgs K).model (markFit { startDt := s, condMax := c, fitIntercept := fi, nSamples := nS, nWalkers := nW, nBurn := nB, thin := th } b) r =
      ({ markFit { startDt := s, condMax := c, fitIntercept := fi, nSamples := nS, nWalkers := nW, nBurn := nB, thin := th } b with modelV := some (b.v.drop r) }, .ok (b.v.drop r)) from rfl] at hg
    simp only at hg
    split at hg
    · rw [← (Prod.mk.inj hg).1]
    · split at hg <;> rw [← (Prod.mk.inj hg).1]
  cases o with
  | error e => cases (Prod.mk.inj h).2
  | ok mc =>
  obtain ⟨m, cov⟩ := mc
  simp only at h
  cases hs : sampleChain L { startDt := s, condMax := c, fitIntercept := fi, nSamples := nS, nWalkers := nW, nBurn := nB, thin := th } (b2.dt.drop r) (b2.n.drop r) m cov with
  | error e => rw [hs] at h; cases (Prod.mk.inj h).2
  | ok chain =>
  rw [hs] at h
  simp only at h
  obtain ⟨-, ⟨gr, ic, e2⟩, -⟩ := storeChain_fit h
  rw [e2]
  exact h2

/-- **C129 is violated**: the documented `model=True` gives other variances and another covariance matrix than the call in which `model` is left out. -/
theorem C129_violated : ∃ (L : GlsLib ℚ) (b b1 b2 : Boot ℚ) (a : GlsArgs ℚ),
    bootstrapGLS L { startDt := a.startDt, condMax := a.condMax, nSamples := a.nSamples, nWalkers := a.nWalkers, nBurn := a.nBurn, thin := a.thin } b =
      (b1, .ok ()) ∧
    bootstrapGLS L { a with model := documentedFit.model, fitIntercept := documentedFit.fitIntercept } b = (b2, .ok ()) ∧
    b1.modelV ≠ b2.modelV ∧ b1.npdCovariance ≠ b2.npdCovariance := by
  refine ⟨exLib, exBoot, _, _, exArgs 1 true, ok_of_outcome (by decide +kernel), ok_of_outcome (by decide +kernel), by decide +kernel, by decide +kernel⟩

/-- **C129 is violated for `max_resamples`**: with the default arguments no more than 10 000 values are ever drawn for an interval, a tenth of the
documented 100 000; if the test has not passed by then the warning comes. -/
theorem C129_resamples_violated (o : Oracle K G) (l : List K) (nSamples : K) (alpha : K) (g g' : G) (vals : List K) (w : Bool)
    (h : sampleUntilNormal o l nSamples ({ alpha := alpha } : BootOpts K).nResamples ({ alpha := alpha } : BootOpts K).maxResamples alpha g =
      .ok (vals, w, g')) :
    10 * vals.length ≤ documentedEstimate.maxResamples ∧ (w = true ↔ 10 * vals.length = documentedEstimate.maxResamples) := by
  obtain ⟨⟨m, h1, h2⟩, -⟩ := C37_budget _ _ _ _ _ _ _ _ _ _ h
  obtain ⟨h3, -⟩ := C38_warning_partial _ _ _ _ _ _ _ _ _ _ h
  rw [h3]
  have e1 : ({ alpha := alpha } : BootOpts K).nResamples = 1000 := rfl
  have e2 : ({ alpha := alpha } : BootOpts K).maxResamples = 10000 := rfl
  have e3 : documentedEstimate.maxResamples = 100000 := rfl
  rw [e1] at h1
  rw [e2] at h2 ⊢
  rw [e3]
  rcases Nat.eq_zero_or_pos m with rfl | hm
  · omega
  · have := h2 hm
    omega

/-- Without resampling the numbers of resamples have no effect. -/
theorem noResampling (sq : K → K) (o : Oracle K G) (g : G) (bl : Bool) (n m n' m' : ℕ) (alpha : K) (sub : ℤ) (dim : String) (base : PyM (Base K)) :
    diffusionAnalyzer sq o g ⟨⟨false, bl, n, m, alpha⟩, sub, dim⟩ base = diffusionAnalyzer sq o g ⟨⟨false, bl, n', m', alpha⟩, sub, dim⟩ base ∧
    jumpAnalyzer sq o g ⟨⟨false, bl, n, m, alpha⟩, sub, dim⟩ base = jumpAnalyzer sq o g ⟨⟨false, bl, n', m', alpha⟩, sub, dim⟩ base ∧
    ∀ q, conductivityAnalyzer sq o g ⟨⟨false, bl, n, m, alpha⟩, sub, dim⟩ q base = conductivityAnalyzer sq o g ⟨⟨false, bl, n', m', alpha⟩, sub, dim⟩ q base :=
  ⟨rfl, rfl, fun _ => rfl⟩

/-- The call of an estimator with every keyword argument given. -/
def estimateWith (alpha : K) (d : EstimateDefaults) : UncParams K :=
  ⟨⟨d.bootstrap, d.block, d.nResamples, d.maxResamples, alpha⟩, d.subSampleDt, d.dimension⟩

/-- **C129, what holds for the estimators.** All arguments other than `max_resamples` have the documented values; as long as resampling is off (as
documented) the other value of `max_resamples` has no effect, and the three analyzers are those of the call with all documented values. -/
theorem C129_estimate_partial (sq : K → K) (o : Oracle K G) (g : G) (alpha : K) (base : PyM (Base K)) :
    ({ opt := { alpha := alpha } } : UncParams K) = estimateWith alpha { documentedEstimate with maxResamples := 10000 } ∧
    diffusionAnalyzer sq o g { opt := { alpha := alpha } } base = diffusionAnalyzer sq o g (estimateWith alpha documentedEstimate) base ∧
    jumpAnalyzer sq o g { opt := { alpha := alpha } } base = jumpAnalyzer sq o g (estimateWith alpha documentedEstimate) base ∧
    ∀ q, conductivityAnalyzer sq o g { opt := { alpha := alpha } } q base = conductivityAnalyzer sq o g (estimateWith alpha documentedEstimate) q base :=
  have h := noResampling sq o g false 1000 10000 1000 100000 alpha 1 "xyz" base
  ⟨rfl, h.1, h.2.1, h.2.2⟩

/-- The hypothesis of `C129_model` holds for the fit `exGls`. -/
example : ∃ r, diffRegime exBoot.dt 2 = .ok r ∧ (bootstrapGLS exLib (exArgs 2 true) exBoot).1.modelV = some (exBoot.v.drop r) :=
  (C129_model exLib exBoot _ 2 100 true 5 2 1 2 exGls).2

/-- `C129_resamples_violated`: with a test that never passes the run ends after at most 10 000 values. -/
example : ∃ vals w g', sampleUntilNormal (exNormal 1000000) [1, 2, 4] 2 1000 10000 (1 / 1000) 0 = .ok (vals, w, g') ∧ 10 * vals.length ≤ 100000 := by
  obtain ⟨⟨vals, w, g'⟩, h⟩ := sampleUntilNormal_ok (o := exNormal 1000000) (l := [1, 2, 4]) (by simp) (k := 2) (by norm_num) (nR := 1000) (maxR := 10000)
    (by norm_num) (alpha := 1 / 1000) (fun l _ => ⟨_, rfl⟩) 0
  exact ⟨vals, w, g', h, (C129_resamples_violated _ _ _ _ _ _ _ _ h).1⟩

end Kinisi
