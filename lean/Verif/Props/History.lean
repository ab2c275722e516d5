import Verif.Props.Fit

/-!
# C49–C52: results after fits with and without intercept, failed fits, histories of fits, posterior predictive
-/

set_option linter.unusedSectionVars false
set_option linter.unusedVariables false

namespace Kinisi
open Spec
variable {K : Type} [Field K] [LinearOrder K] [IsStrictOrderedRing K] [FloorRing K]

/-! ## C52 -/

theorem mapM_range_rows {α : Type} (f : ℕ → PyM (List α)) (k q : ℕ) (p : α → Prop)
    (h : ∀ i < k, ∃ rows, f i = .ok rows ∧ rows.length = q ∧ ∀ r ∈ rows, p r) :
    ∃ all, (List.range k).mapM f = .ok all ∧ all.length = k ∧ all.flatten.length = k * q ∧ ∀ r ∈ all.flatten, p r := by
  induction k with
  | zero => exact ⟨[], rfl, rfl, by simp, by simp⟩
  | succ k ih =>
    obtain ⟨all, h1, h2, h3, h4⟩ := ih fun i hi => h i (by omega)
    obtain ⟨rows, h5, h6, h7⟩ := h k (by omega)
    refine ⟨all ++ [rows], ?_, by simp [h2], ?_, ?_⟩
    · rw [List.range_succ, List.mapM_append, h1]
      simp only [List.mapM_cons, List.mapM_nil, h5, bind, Except.bind, pure, Except.pure]
    · rw [List.flatten_append, List.length_append, h3]
      simp [h6, Nat.add_mul]
    · intro r hr
      rw [List.flatten_append, List.mem_append] at hr
      rcases hr with hr | hr
      · exact h4 r hr
      · exact h7 r (by simpa using hr)

/-- **C52.** After a successful fit with intercept (at least one kept sample, and a regression that rejects a single point), the posterior
predictive can be evaluated, has `n_posterior * n_predictive` rows, one column per fitted interval, and `n_posterior` defaults to the number of
samples.  `rvs` and `draw` are the random numbers: `rvs` returns the requested number of vectors of the length of the mean, `draw` indices below the number of samples. -/
theorem C52_posterior_predictive {L : GlsLib K} {a : GlsArgs K} {b b' : Boot K} (hs : b.dt.Pairwise (· ≤ ·)) (hv : b.v.length = b.dt.length)
    (ho : b.nO.length = b.dt.length) (hreg : ∀ t y s, L.linregress t y = .ok s → 2 ≤ t.length) (hi : a.fitIntercept = true)
    (hne : 0 < a.nWalkers) (hth : a.thin ≤ a.nSamples) (h : bootstrapGLS L a b = (b', .ok ()))
    (rvs : List K → List (List (Option K)) → ℕ → ℕ → List (List K)) (hrvs : ∀ μ c k i, (rvs μ c k i).length = k ∧ ∀ row ∈ rvs μ c k i, row.length = μ.length)
    (draw : ℕ → ℕ → ℕ) (hdraw : ∀ size i, 0 < size → draw size i < size) (nPost : Option ℕ) (nPred : ℕ) :
    ∃ rows, posteriorPredictive rvs draw b' nPost nPred = .ok rows ∧
      rows.length = nPost.getD (a.nWalkers * (a.nSamples / a.thin)) * nPred ∧
      ∀ row ∈ rows, row.length = (b.dt.filter fun x => decide (a.startDt ≤ x)).length := by
  obtain ⟨hup, hsd, -, -, r, m, cov, chain, g, b1, b2, h1, rfl, h3, h4, h5, h6, h7, h8, h9⟩ := bootstrapGLS_ok h
  rw [if_pos hi] at h9
  obtain ⟨c, h10, h11⟩ := h9
  obtain ⟨ht, chain', g', ll, pos, run, q1, q2, q3, q4, -⟩ := C47_sample_count h
  obtain rfl := Option.some.inj (h6.symm.trans q1)
  obtain rfl := Option.some.inj (h8.symm.trans q2)
  have hm : m = (b.dt.drop r).length := generateCovariance_size (b := markFit a b) h3 ho hv
  obtain ⟨logdet, inv, slope, ml, -, -, e1, -, e2, -⟩ := sampleChain_ok h5
  have h2m : 2 ≤ m := by rw [← e1]; exact hreg _ _ _ e2
  have hdt : b'.dt = b.dt := by obtain ⟨_, _, _, _, _, _, _, _, _, _, e⟩ := hup; rw [e]
  have hgpos : 0 < g.length := by rw [q4]; exact Nat.mul_pos hne (Nat.div_pos hth ht)
  have hcl : c.length = g.length := by rw [(mapM_pyGet h10).1, (mapM_pyGet h7).1]
  have hcovl : (matrixRows cov).length = m := by simp [matrixRows]
  have hrow : ∀ i < nPost.getD g.length, ∃ rows, predictiveRows rvs b' (b.dt.drop r) nPred i (draw g.length i) = .ok rows ∧ rows.length = nPred ∧
      ∀ row ∈ rows, row.length = (b.dt.drop r).length := by
    intro i _
    have hd := hdraw g.length i hgpos
    refine ⟨rvs ((b.dt.drop r).map fun x => g[draw g.length i] * x + c[draw g.length i]'(by omega)) (matrixRows cov) nPred i, ?_, (hrvs _ _ _ _).1, ?_⟩
    · unfold predictiveRows
      rw [h8, h11, h4]
      simp only [samplesOf, bind, Except.bind, pyGet_ok (List.getElem?_eq_getElem hd),
        pyGet_ok (List.getElem?_eq_getElem (show draw g.length i < c.length by omega))]
      rw [if_neg (by rw [hcovl, List.length_map, ← hm]; simp), if_neg (by rw [List.length_map, ← hm]; omega)]
    · intro row hr
      rw [(hrvs _ _ _ _).2 row hr, List.length_map]
  obtain ⟨all, f1, f2, f3, f4⟩ := mapM_range_rows _ _ _ _ hrow
  refine ⟨all.flatten, ?_, ?_, ?_⟩
  · have hcount : posteriorCount nPost b' = .ok (nPost.getD g.length) := by
      cases nPost with
      | none => simp only [posteriorCount, h8, samplesOf, bind, Except.bind]; rfl
      | some k => rfl
    unfold posteriorPredictive
    rw [hcount]
    simp only [bind, Except.bind, startOf, hsd, hdt, h1, h8, samplesOf, randintCheck]
    rw [if_neg (by omega)]
    simp only [f1]
  · rw [f3, q4]
  · intro row hr
    rw [f4 row hr, ← fittedPart_drop hs h1 b.dt rfl]
    unfold fittedPart
    rw [List.length_map]
    have : b.dt = (b.dt.zip b.dt).map Prod.fst := by rw [List.map_fst_zip]; exact le_refl _
    conv_rhs => rw [this, List.filter_map, List.length_map]
    rfl

/-! ## C49 -/

/-- **C49 is violated, in general**: after every successful fit without intercept the posterior predictive (as soon as one posterior sample is asked
for), the distribution and the flat chain of the analyzer raise AttributeError. -/
theorem C49_violated {L : GlsLib K} {a : GlsArgs K} {b b' : Boot K} (hi : a.fitIntercept = false) (h : bootstrapGLS L a b = (b', .ok ()))
    (rvs : List K → List (List (Option K)) → ℕ → ℕ → List (List K)) (draw : ℕ → ℕ → ℕ) (hdraw : ∀ size i, 0 < size → draw size i < size) (nPred : ℕ) :
    distribution b' = .error .attributeError ∧
    (∀ X : Boot K → Option (List K), analyzerFlatchain X b' = .error .attributeError) ∧
    (0 < a.nWalkers → a.thin ≤ a.nSamples → ∀ nPost, nPost ≠ some 0 → posteriorPredictive rvs draw b' nPost nPred = .error .attributeError) := by
  obtain ⟨hup, hsd, -, -, r, m, cov, chain, g, b1, b2, h1, rfl, h3, h4, h5, h6, h7, h8, h9⟩ := bootstrapGLS_ok h
  rw [if_neg (by simp [hi])] at h9
  refine ⟨?_, ?_, ?_⟩
  · unfold distribution; rw [h8, h9]; rfl
  · intro X
    unfold analyzerFlatchain
    rw [h9]
    cases X b' with
    | none => rfl
    | some x => rfl
  · intro hw hth nPost hp
    obtain ⟨ht, chain', g', ll, pos, run, q1, q2, q3, q4, -⟩ := C47_sample_count h
    obtain rfl := Option.some.inj (h8.symm.trans q2)
    have hgpos : 0 < g.length := by rw [q4]; exact Nat.mul_pos hw (Nat.div_pos hth ht)
    have hcount : ∃ k, posteriorCount nPost b' = .ok (k + 1) := by
      cases nPost with
      | none =>
        refine ⟨g.length - 1, ?_⟩
        simp only [posteriorCount, h8, samplesOf, bind, Except.bind]
        congr 1; omega
      | some k =>
        cases k with
        | zero => exact absurd rfl hp
        | succ k => exact ⟨k, rfl⟩
    obtain ⟨k, hk⟩ := hcount
    have hdt : b'.dt = b.dt := by obtain ⟨_, _, _, _, _, _, _, _, _, _, e⟩ := hup; rw [e]
    unfold posteriorPredictive
    rw [hk]
    simp only [bind, Except.bind, startOf, hsd, hdt, h1, h8, samplesOf, randintCheck]
    rw [if_neg (by omega)]
    have hfirst : predictiveRows rvs b' (b.dt.drop r) nPred 0 (draw g.length 0) = .error .attributeError := by
      unfold predictiveRows
      rw [h8, h9]
      simp only [samplesOf, bind, Except.bind, pyGet_ok (List.getElem?_eq_getElem (hdraw g.length 0 hgpos))]
    simp only [List.range_succ_eq_map, List.mapM_cons, bind, Except.bind, hfirst]

/-- **C49, what holds.** With an intercept all of them can be evaluated; `distribution` has one row per interval with one value per
sample, the flat chain one row per sample.  Missing: fits without intercept, see `C49_violated`. -/
theorem C49_with_intercept_partial {L : GlsLib K} {a : GlsArgs K} {b b' : Boot K} (hi : a.fitIntercept = true) (h : diffusion L a b = (b', .ok ())) :
    (∃ rows, distribution b' = .ok rows ∧ rows.length = b.dt.length ∧ ∀ row ∈ rows, row.length = a.nWalkers * (a.nSamples / a.thin)) ∧
    (∃ rows, analyzerFlatchain (·.diffusionCoefficient) b' = .ok rows ∧ rows.length = a.nWalkers * (a.nSamples / a.thin) ∧
      ∀ row ∈ rows, row.length = 2) := by
  obtain ⟨b1, g, hb, hg, rfl⟩ := diffusion_ok h
  obtain ⟨hup, hsd, -, -, r, m, cov, chain, g', _, b2, h1, rfl, h3, h4, h5, h6, h7, h8, h9⟩ := bootstrapGLS_ok hb
  obtain rfl := Option.some.inj (hg.symm.trans h8)
  rw [if_pos hi] at h9
  obtain ⟨c, h10, h11⟩ := h9
  obtain ⟨ht, chain', g', ll, pos, run, q1, q2, q3, q4, -⟩ := C47_sample_count hb
  obtain rfl := Option.some.inj (h8.symm.trans q2)
  have hcl : c.length = g.length := by rw [(mapM_pyGet h10).1, (mapM_pyGet h7).1]
  have hdt : b1.dt = b.dt := by obtain ⟨_, _, _, _, _, _, _, _, _, _, e⟩ := hup; rw [e]
  constructor
  · refine ⟨b1.dt.map fun t => (g.zip c).map fun p => p.1 * t + p.2, ?_, ?_, ?_⟩
    · unfold distribution
      simp only [hg, h11, samplesOf, bind, Except.bind]
      rw [if_neg (by omega)]
    · rw [List.length_map, hdt]
    · intro row hr
      obtain ⟨t, -, rfl⟩ := List.mem_map.mp hr
      rw [List.length_map, List.length_zip, hcl, min_self, q4]
  · refine ⟨((g.map fun x => x / (20000 * (b1.dims : K))).zip c).map fun p => [p.1, p.2], ?_, ?_, ?_⟩
    · unfold analyzerFlatchain
      simp only [h11, samplesOf, bind, Except.bind]
      rw [if_neg (by rw [List.length_map]; omega)]
    · rw [List.length_map, List.length_zip, List.length_map, hcl, min_self, q4]
    · intro row hr
      obtain ⟨p, -, rfl⟩ := List.mem_map.mp hr
      rfl

/-! ## C50 -/

/-- Whatever a call does to the results. -/
inductive FitCall (K : Type) where
  | gls (L : GlsLib K) (a : GlsArgs K)
  | diffusion (L : GlsLib K) (a : GlsArgs K)
  | jump (L : GlsLib K) (a : GlsArgs K)
  | conductivity (L : GlsLib K) (C : Consts K) (a : GlsArgs K) (T V : K)

/-- The arguments of the fit. -/
def FitCall.args : FitCall K → GlsArgs K
  | .gls _ a => a
  | .diffusion _ a => a
  | .jump _ a => a
  | .conductivity _ _ a _ _ => a

/-- The library routines and random numbers of the call. -/
def FitCall.lib : FitCall K → GlsLib K
  | .gls L _ => L
  | .diffusion L _ => L
  | .jump L _ => L
  | .conductivity L _ _ _ _ => L

/-- Running a call. -/
def FitCall.run : FitCall K → Boot K → Boot K × PyM Unit
  | .gls L a, b => bootstrapGLS L a b
  | .diffusion L a, b => Kinisi.diffusion L a b
  | .jump L a, b => jumpDiffusion L a b
  | .conductivity L C a T V, b => Kinisi.conductivity L C a T V b

/-- A call that raises either failed within the fit or the fit succeeded and the last step raised, leaving the state of the fit. -/
theorem FitCall.run_error {c : FitCall K} {b b' : Boot K} {e : PyErr} (h : c.run b = (b', .error e)) :
    bootstrapGLS c.lib c.args b = (b', .error e) ∨ bootstrapGLS c.lib c.args b = (b', .ok ()) := by
  cases c with
  | gls L a => exact Or.inl h
  | diffusion L a =>
    simp only [FitCall.run, Kinisi.diffusion] at h
    cases hb : bootstrapGLS L a b with
    | mk b1 o =>
    rw [hb] at h
    cases o with
    | error e' =>
      simp only at h
      left
      show bootstrapGLS L a b = _
      rw [hb]; exact h
    | ok u =>
      simp only at h
      right
      show bootstrapGLS L a b = _
      split at h
      · rw [hb, (Prod.mk.inj h).1]
      · cases (Prod.mk.inj h).2
  | jump L a =>
    simp only [FitCall.run, jumpDiffusion] at h
    cases hb : bootstrapGLS L a b with
    | mk b1 o =>
    rw [hb] at h
    cases o with
    | error e' =>
      simp only at h
      left
      show bootstrapGLS L a b = _
      rw [hb]; exact h
    | ok u =>
      simp only at h
      right
      show bootstrapGLS L a b = _
      split at h
      · rw [hb, (Prod.mk.inj h).1]
      · split at h
        · rw [hb, (Prod.mk.inj h).1]
        · cases (Prod.mk.inj h).2
  | conductivity L C a T V =>
    simp only [FitCall.run, Kinisi.conductivity] at h
    cases hb : bootstrapGLS L a b with
    | mk b1 o =>
    rw [hb] at h
    cases o with
    | error e' =>
      simp only at h
      left
      show bootstrapGLS L a b = _
      rw [hb]; exact h
    | ok u =>
      simp only at h
      right
      show bootstrapGLS L a b = _
      split at h
      · rw [hb, (Prod.mk.inj h).1]
      · split at h
        · rw [hb, (Prod.mk.inj h).1]
        · split at h
          · rw [hb, (Prod.mk.inj h).1]
          · split at h
            · rw [hb, (Prod.mk.inj h).1]
            · cases (Prod.mk.inj h).2

/-- **C50, what holds.** A failed call leaves D, D_J, sigma and all observables unchanged; and unless the failure came after the sampling had
finished (the new chain is stored) it leaves gradient, intercept and flat chain unchanged too.  Missing: start_dt, model, cond_max and the covariance
matrix, which are overwritten first, see `C50_violated`. -/
theorem C50_failed_fit_partial {c : FitCall K} {b b' : Boot K} {e : PyErr} (h : c.run b = (b', .error e)) :
    (b'.diffusionCoefficient = b.diffusionCoefficient ∧ b'.jumpDiffusionCoefficient = b.jumpDiffusionCoefficient ∧ b'.sigma = b.sigma ∧
      b'.dt = b.dt ∧ b'.n = b.n ∧ b'.s = b.s ∧ b'.v = b.v ∧ b'.nO = b.nO ∧ b'.ngp = b.ngp ∧ b'.displacements = b.displacements ∧
      b'.euclid = b.euclid ∧ b'.distributions = b.distributions) ∧
    ((b'.gradient = b.gradient ∧ b'.intercept = b.intercept ∧ b'.flatchain = b.flatchain) ∨
      ∃ (r m : ℕ) (cov : Matrix (Fin m) (Fin m) K) (chain : List (List K)), diffRegime b.dt c.args.startDt = .ok r ∧
        sampleChain c.lib c.args (b.dt.drop r) (b.n.drop r) m cov = .ok chain ∧ b'.flatchain = some chain) := by
  rcases FitCall.run_error h with h | h
  · obtain ⟨⟨_, _, _, _, _, _, _, _, _, _, e1⟩, h2⟩ := bootstrapGLS_error h
    refine ⟨by rw [e1]; exact ⟨rfl, rfl, rfl, rfl, rfl, rfl, rfl, rfl, rfl, rfl, rfl, rfl⟩, ?_⟩
    rcases h2 with ⟨_, _, _, _, _, _, _, e2⟩ | h2
    · left; rw [e2]; exact ⟨rfl, rfl, rfl⟩
    · exact Or.inr h2
  · obtain ⟨⟨_, _, _, _, _, _, _, _, _, _, e1⟩, -, -, -, r, m, cov, chain, g, b1, b2, h1, rfl, h3, h4, h5, h6, -⟩ := bootstrapGLS_ok h
    exact ⟨by rw [e1]; exact ⟨rfl, rfl, rfl, rfl, rfl, rfl, rfl, rfl, rfl, rfl, rfl, rfl⟩, Or.inr ⟨r, m, cov, chain, h1, h5, h6⟩⟩

/-! ## C51 -/

/-- The data a fit reads. -/
def SameData (b b' : Boot K) : Prop :=
  b.dt = b'.dt ∧ b.n = b'.n ∧ b.v = b'.v ∧ b.nO = b'.nO ∧ b.dims = b'.dims ∧ b.displacements = b'.displacements

/-- What belongs to a fit. -/
def SameFit (b b' : Boot K) : Prop :=
  b.startDt = b'.startDt ∧ b.model = b'.model ∧ b.condMax = b'.condMax ∧ b.modelV = b'.modelV ∧ b.npdCovariance = b'.npdCovariance ∧
  b.covariance = b'.covariance ∧ b.flatchain = b'.flatchain ∧ b.gradient = b'.gradient ∧ b.intercept = b'.intercept

theorem FitUpdate.sameData {b b' : Boot K} (h : FitUpdate b b') : SameData b b' := by
  obtain ⟨_, _, _, _, _, _, _, _, _, _, e⟩ := h
  rw [e]; exact ⟨rfl, rfl, rfl, rfl, rfl, rfl⟩

theorem chooseVariances_same (L : GlsLib K) (model : Bool) {b b' : Boot K} (r : ℕ) (h : SameData b b') :
    (chooseVariances L model b r).2 = (chooseVariances L model b' r).2 ∧
    ∀ v, (chooseVariances L model b r).2 = .ok v →
      (chooseVariances L model b r).1.modelV = some v ∧ (chooseVariances L model b' r).1.modelV = some v := by
  obtain ⟨h1, h2, h3, h4, -, -⟩ := h
  unfold chooseVariances modelBranch
  rw [h1, h3, h4]
  cases model with
  | false =>
    rw [if_neg Bool.false_ne_true, if_neg Bool.false_ne_true]
    refine ⟨rfl, fun v hv => ?_⟩
    have hv' : b'.v.drop r = v := Except.ok.inj hv
    rw [← hv']
    exact ⟨rfl, rfl⟩
  | true =>
    rw [if_pos rfl, if_pos rfl]
    cases L.curveFit (b'.nO.drop r) (b'.dt.drop r) (b'.v.drop r) with
    | error e => exact ⟨rfl, fun v hv => by cases hv⟩
    | ok a =>
      simp only
      cases modelVariance (b'.nO.drop r) (b'.dt.drop r) a with
      | error e => exact ⟨rfl, fun v hv => by cases hv⟩
      | ok v' =>
        refine ⟨rfl, fun v hv => ?_⟩
        have hv' : v' = v := Except.ok.inj hv
        rw [← hv']
        exact ⟨rfl, rfl⟩

theorem generateCovariance_same (L : GlsLib K) (a : GlsArgs K) {b b' : Boot K} (r : ℕ) (h : SameData b b') :
    (generateCovariance L a b r).2 = (generateCovariance L a b' r).2 ∧
    ∀ x, (generateCovariance L a b r).2 = .ok x → (generateCovariance L a b r).1.modelV = (generateCovariance L a b' r).1.modelV ∧
      (generateCovariance L a b r).1.npdCovariance = (generateCovariance L a b' r).1.npdCovariance := by
  obtain ⟨g1, g2⟩ := chooseVariances_same L a.model r h
  unfold generateCovariance
  cases hc : chooseVariances L a.model b r with
  | mk b1 o =>
  cases hc' : chooseVariances L a.model b' r with
  | mk b1' o' =>
  obtain ⟨⟨_, _, _, _, _, _, _, e1⟩, -⟩ := chooseVariances_pre hc
  obtain ⟨⟨_, _, _, _, _, _, _, e2⟩, -⟩ := chooseVariances_pre hc'
  have n1 : b1.nO = b.nO := by rw [e1]
  have n2 : b1'.nO = b'.nO := by rw [e2]
  rw [hc, hc'] at g1 g2
  simp only at g1 g2
  subst g1
  obtain ⟨h1, h2, h3, h4, -, -⟩ := h
  cases o with
  | error e => exact ⟨rfl, fun x hx => by cases hx⟩
  | ok v =>
    simp only
    rw [n1, n2, h4]
    obtain ⟨m1, m2⟩ := g2 v rfl
    cases populateCovariance v (b'.nO.drop r) with
    | error e => exact ⟨rfl, fun x hx => by cases hx⟩
    | ok M =>
      simp only
      cases condition L v.length M a.condMax with
      | error e => exact ⟨rfl, fun x hx => by cases hx⟩
      | ok A => exact ⟨rfl, fun _ _ => ⟨m1.trans m2.symm, rfl⟩⟩

theorem bootstrapGLS_same (L : GlsLib K) (a : GlsArgs K) {b b' b1 : Boot K} (h : SameData b b') (hb : bootstrapGLS L a b = (b1, .ok ())) :
    ∃ b1', bootstrapGLS L a b' = (b1', .ok ()) ∧ SameFit b1 b1' := by
  have hm : SameData (markFit a b) (markFit a b') := h
  unfold bootstrapGLS at hb ⊢
  rw [hm.1] at hb
  cases hr : diffRegime (markFit a b').dt a.startDt with
  | error e => rw [hr] at hb; cases (Prod.mk.inj hb).2
  | ok r =>
  rw [hr] at hb
  simp only [fitFrom] at hb ⊢
  obtain ⟨g1, g2⟩ := generateCovariance_same L a r hm
  cases hc : generateCovariance L a (markFit a b) r with
  | mk c1 o =>
  cases hc' : generateCovariance L a (markFit a b') r with
  | mk c1' o' =>
  rw [hc, hc'] at g1 g2
  simp only at g1 g2
  subst g1
  rw [hc] at hb
  obtain ⟨⟨_, _, _, _, _, _, _, e1⟩, s1, s2, s3⟩ := generateCovariance_pre hc
  obtain ⟨⟨_, _, _, _, _, _, _, e2⟩, s1', s2', s3'⟩ := generateCovariance_pre hc'
  cases o with
  | error e => cases (Prod.mk.inj hb).2
  | ok mc =>
    obtain ⟨m, cov⟩ := mc
    simp only at hb ⊢
    obtain ⟨m1, m2⟩ := g2 _ rfl
    have d1 : c1.dt = c1'.dt := by rw [e1, e2]; exact hm.1
    have d2 : c1.n = c1'.n := by rw [e1, e2]; exact hm.2.1
    rw [d1, d2] at hb
    cases hs : sampleChain L a (c1'.dt.drop r) (c1'.n.drop r) m cov with
    | error e => rw [hs] at hb; cases (Prod.mk.inj hb).2
    | ok chain =>
      rw [hs] at hb
      simp only at hb ⊢
      unfold storeChain at hb ⊢
      simp only at hb ⊢
      cases hq0 : chainColumn L 0 chain with
      | error e => rw [hq0] at hb; cases (Prod.mk.inj hb).2
      | ok g =>
        rw [hq0] at hb
        simp only at hb ⊢
        cases hf : a.fitIntercept with
        | false =>
          rw [hf, if_neg Bool.false_ne_true] at hb
          rw [if_neg Bool.false_ne_true]
          refine ⟨_, rfl, ?_⟩
          rw [← (Prod.mk.inj hb).1]
          exact ⟨s1.trans s1'.symm, s2.trans s2'.symm, s3.trans s3'.symm, m1, m2, rfl, rfl, rfl, rfl⟩
        | true =>
          rw [hf, if_pos rfl] at hb
          rw [if_pos rfl]
          cases hq1 : chainColumn L 1 chain with
          | error e => rw [hq1] at hb; cases (Prod.mk.inj hb).2
          | ok c =>
            rw [hq1] at hb
            refine ⟨_, rfl, ?_⟩
            rw [← (Prod.mk.inj hb).1]
            exact ⟨s1.trans s1'.symm, s2.trans s2'.symm, s3.trans s3'.symm, m1, m2, rfl, rfl, rfl, rfl⟩

/-- A successful call is a successful fit plus one derived quantity. -/
theorem FitCall.run_ok {c : FitCall K} {b b' : Boot K} (h : c.run b = (b', .ok ())) :
    ∃ b1, bootstrapGLS c.lib c.args b = (b1, .ok ()) ∧ SameFit b1 b' ∧ SameData b1 b' ∧
      ((∀ L a, c ≠ .diffusion L a) → b'.diffusionCoefficient = b.diffusionCoefficient) ∧
      ((∀ L a, c ≠ .jump L a) → b'.jumpDiffusionCoefficient = b.jumpDiffusionCoefficient) ∧
      ((∀ L C a T V, c ≠ .conductivity L C a T V) → b'.sigma = b.sigma) := by
  have keep : ∀ {L a b1}, bootstrapGLS L a b = (b1, Except.ok ()) → b1.diffusionCoefficient = b.diffusionCoefficient ∧
      b1.jumpDiffusionCoefficient = b.jumpDiffusionCoefficient ∧ b1.sigma = b.sigma := by
    intro L a b1 hb
    obtain ⟨⟨_, _, _, _, _, _, _, _, _, _, e⟩, -⟩ := bootstrapGLS_ok hb
    rw [e]; exact ⟨rfl, rfl, rfl⟩
  cases c with
  | gls L a =>
    obtain ⟨k1, k2, k3⟩ := keep h
    exact ⟨b', h, ⟨rfl, rfl, rfl, rfl, rfl, rfl, rfl, rfl, rfl⟩, ⟨rfl, rfl, rfl, rfl, rfl, rfl⟩, fun _ => k1, fun _ => k2, fun _ => k3⟩
  | diffusion L a =>
    obtain ⟨b1, g, h1, h2, rfl⟩ := diffusion_ok h
    obtain ⟨k1, k2, k3⟩ := keep h1
    exact ⟨b1, h1, ⟨rfl, rfl, rfl, rfl, rfl, rfl, rfl, rfl, rfl⟩, ⟨rfl, rfl, rfl, rfl, rfl, rfl⟩, fun hh => absurd rfl (hh L a), fun _ => k2, fun _ => k3⟩
  | jump L a =>
    obtain ⟨b1, g, d0, rest, h1, h2, h3, rfl⟩ := jumpDiffusion_ok h
    obtain ⟨k1, k2, k3⟩ := keep h1
    exact ⟨b1, h1, ⟨rfl, rfl, rfl, rfl, rfl, rfl, rfl, rfl, rfl⟩, ⟨rfl, rfl, rfl, rfl, rfl, rfl⟩, fun _ => k1, fun hh => absurd rfl (hh L a), fun _ => k3⟩
  | conductivity L C a T V =>
    obtain ⟨b1, g, cc, h1, h2, h3, rfl⟩ := conductivity_ok h
    obtain ⟨k1, k2, k3⟩ := keep h1
    exact ⟨b1, h1, ⟨rfl, rfl, rfl, rfl, rfl, rfl, rfl, rfl, rfl⟩, ⟨rfl, rfl, rfl, rfl, rfl, rfl⟩, fun _ => k1, fun _ => k2, fun hh => absurd rfl (hh L C a T V)⟩

/-- All calls of the list succeed, leading from `b` to `b'`. -/
def Succeeds : List (FitCall K) → Boot K → Boot K → Prop
  | [], b, b' => b = b'
  | c :: cs, b, b' => ∃ b1, c.run b = (b1, .ok ()) ∧ Succeeds cs b1 b'

theorem succeeds_append {xs ys : List (FitCall K)} {b b' : Boot K} :
    Succeeds (xs ++ ys) b b' ↔ ∃ b1, Succeeds xs b b1 ∧ Succeeds ys b1 b' := by
  induction xs generalizing b with
  | nil => exact ⟨fun h => ⟨b, rfl, h⟩, fun ⟨b1, h1, h2⟩ => by cases h1; exact h2⟩
  | cons c xs ih =>
    constructor
    · rintro ⟨b1, h1, h2⟩
      obtain ⟨b2, h3, h4⟩ := ih.mp h2
      exact ⟨b2, ⟨b1, h1, h3⟩, h4⟩
    · rintro ⟨b2, ⟨b1, h1, h3⟩, h4⟩
      exact ⟨b1, h1, ih.mpr ⟨b2, h3, h4⟩⟩

theorem SameData.trans {a b c : Boot K} (h1 : SameData a b) (h2 : SameData b c) : SameData a c :=
  ⟨h1.1.trans h2.1, h1.2.1.trans h2.2.1, h1.2.2.1.trans h2.2.2.1, h1.2.2.2.1.trans h2.2.2.2.1, h1.2.2.2.2.1.trans h2.2.2.2.2.1,
    h1.2.2.2.2.2.trans h2.2.2.2.2.2⟩

theorem SameData.symm {a b : Boot K} (h : SameData a b) : SameData b a :=
  ⟨h.1.symm, h.2.1.symm, h.2.2.1.symm, h.2.2.2.1.symm, h.2.2.2.2.1.symm, h.2.2.2.2.2.symm⟩

theorem SameFit.trans {a b c : Boot K} (h1 : SameFit a b) (h2 : SameFit b c) : SameFit a c := by
  obtain ⟨a1, a2, a3, a4, a5, a6, a7, a8, a9⟩ := h1
  obtain ⟨b1, b2, b3, b4, b5, b6, b7, b8, b9⟩ := h2
  exact ⟨a1.trans b1, a2.trans b2, a3.trans b3, a4.trans b4, a5.trans b5, a6.trans b6, a7.trans b7, a8.trans b8, a9.trans b9⟩

theorem SameFit.symm {a b : Boot K} (h : SameFit a b) : SameFit b a := by
  obtain ⟨a1, a2, a3, a4, a5, a6, a7, a8, a9⟩ := h
  exact ⟨a1.symm, a2.symm, a3.symm, a4.symm, a5.symm, a6.symm, a7.symm, a8.symm, a9.symm⟩

theorem succeeds_data {cs : List (FitCall K)} {b b' : Boot K} (h : Succeeds cs b b') : SameData b b' := by
  induction cs generalizing b with
  | nil => cases h; exact ⟨rfl, rfl, rfl, rfl, rfl, rfl⟩
  | cons c cs ih =>
    obtain ⟨b1, h1, h2⟩ := h
    obtain ⟨b2, h3, -, h4, -⟩ := FitCall.run_ok h1
    exact ((bootstrapGLS_ok h3).1.sameData.trans h4).trans (ih h2)

/-- **C51.** After any sequence of successful calls, ending with `c`: the fit of `c` would succeed on the object before all calls (`b`), and
everything that belongs to the fit (start_dt, model, cond_max, variances, covariance matrices, flat chain, gradient, intercept) is exactly what it would
give there, so nothing is left over from earlier fits. -/
theorem C51_history {cs : List (FitCall K)} {c : FitCall K} {b b' : Boot K} (h : Succeeds (cs ++ [c]) b b') :
    ∃ b1, bootstrapGLS c.lib c.args b = (b1, .ok ()) ∧ SameFit b' b1 := by
  obtain ⟨b0, h1, b2, h2, rfl⟩ := succeeds_append.mp h
  obtain ⟨b3, h3, h4, -, -⟩ := FitCall.run_ok h2
  obtain ⟨b1, h5, h6⟩ := bootstrapGLS_same c.lib c.args (succeeds_data h1).symm h3
  exact ⟨b1, h5, h4.symm.trans h6⟩

/-- **C51, the fields spelled out.** -/
theorem C51_consistent {cs : List (FitCall K)} {c : FitCall K} {b b' : Boot K} (h : Succeeds (cs ++ [c]) b b')
    (hs : b.dt.Pairwise (· ≤ ·)) (hv : b.v.length = b.dt.length) (ho : b.nO.length = b.dt.length) (hn : b.n.length = b.dt.length) :
    b'.startDt = some c.args.startDt ∧ b'.model = some c.args.model ∧ b'.condMax = some c.args.condMax ∧
    (b'.intercept.isSome ↔ c.args.fitIntercept = true) ∧
    ∃ (m : ℕ) (cov : Matrix (Fin m) (Fin m) K) (chain : List (List K)) (g : List K),
      m = (b.dt.filter fun x => decide (c.args.startDt ≤ x)).length ∧ b'.covariance = some (rowsOf cov) ∧
      b'.flatchain = some chain ∧ b'.gradient = some g ∧ g.length = chain.length ∧ chain.length = c.args.nWalkers * (c.args.nSamples / c.args.thin) ∧
      (∀ (i : ℕ) (row : List K), chain[i]? = some row → g[i]? = row[0]?) ∧
      (∀ cc, b'.intercept = some cc → cc.length = chain.length ∧ ∀ (i : ℕ) (row : List K), chain[i]? = some row → cc[i]? = row[1]?) := by
  obtain ⟨b1, h1, f1, f2, f3, -, -, f6, f7, f8, f9⟩ := C51_history h
  obtain ⟨-, m, cov, chain, e1, e2, e3, e4⟩ := C44_fit_points hs hn hv ho h1
  obtain ⟨-, s1, s2, s3, -, -, -, chain', g, -, -, -, -, -, -, -, h6, h7, h8, h9⟩ := bootstrapGLS_ok h1
  obtain rfl := Option.some.inj (e4.symm.trans h6)
  obtain ⟨-, chain'', g', ll, pos, run, q1, q2, q3, -⟩ := C47_sample_count h1
  obtain rfl := Option.some.inj (e4.symm.trans q1)
  have col : ∀ (k : ℕ) (x : List K), chain.mapM (fun row => pyGet row k) = .ok x → x.length = chain.length ∧
      ∀ (i : ℕ) (row : List K), chain[i]? = some row → x[i]? = row[k]? := by
    intro k x hx
    obtain ⟨c1, c2⟩ := mapM_pyGet hx
    refine ⟨c1, ?_⟩
    intro i row hrow
    have hi : i < chain.length := by
      by_contra hge
      rw [List.getElem?_eq_none (not_lt.mp hge)] at hrow
      cases hrow
    rw [List.getElem?_eq_getElem hi] at hrow
    obtain rfl := Option.some.inj hrow
    rw [c2 i hi (by omega), List.getElem?_eq_getElem (by omega)]
  refine ⟨f1.trans s1, f2.trans s2, f3.trans s3, ?_, m, cov, chain, g, e1, f6.trans e2, f7.trans e4, f8.trans h8, (col 0 g h7).1, q3, (col 0 g h7).2, ?_⟩
  · cases hfi : c.args.fitIntercept with
    | false =>
      rw [if_neg (by simp [hfi])] at h9
      rw [f9, h9]; simp
    | true =>
      rw [if_pos hfi] at h9
      obtain ⟨cc, -, h10⟩ := h9
      rw [f9, h10]; simp
  · intro cc hcc
    cases hfi : c.args.fitIntercept with
    | false =>
      rw [if_neg (by simp [hfi])] at h9
      rw [f9, h9] at hcc
      cases hcc
    | true =>
      rw [if_pos hfi] at h9
      obtain ⟨cc', h11, h10⟩ := h9
      rw [f9, h10] at hcc
      obtain rfl := Option.some.inj hcc
      exact col 1 cc' h11

/-- **C51, D.** D is that of the latest `diffusion` call: the gradient of that fit, as obtained from the object before all calls, over
`2·dims`, in cm²/s.  The same for the other two is `C51_others`. -/
theorem C51_D {cs post : List (FitCall K)} {L : GlsLib K} {a : GlsArgs K} {b b' : Boot K} (h : Succeeds (cs ++ .diffusion L a :: post) b b')
    (hpost : ∀ c ∈ post, ∀ L a, c ≠ .diffusion L a) :
    ∃ b1 g, bootstrapGLS L a b = (b1, .ok ()) ∧ b1.gradient = some g ∧
      b'.diffusionCoefficient = some (g.map fun x => x / (2 * (b.dims : K)) * angstromSqPerPs) := by
  obtain ⟨b0, h1, b2, h2, h3⟩ := succeeds_append.mp h
  have keep : ∀ {post : List (FitCall K)} {x y : Boot K}, Succeeds post x y → (∀ c ∈ post, ∀ L a, c ≠ .diffusion L a) →
      y.diffusionCoefficient = x.diffusionCoefficient := by
    intro post
    induction post with
    | nil => intro x y h _; cases h; rfl
    | cons c cs ih =>
      intro x y h hp
      obtain ⟨z, h4, h5⟩ := h
      obtain ⟨-, -, -, -, k, -⟩ := FitCall.run_ok h4
      rw [ih h5 (fun c hc => hp c (List.mem_cons_of_mem _ hc)), k (hp c List.mem_cons_self)]
  obtain ⟨g, d, h4, h5, rfl⟩ := C48_diffusion.1 h2
  obtain ⟨b3, h6, h7, -⟩ := FitCall.run_ok (c := .diffusion L a) h2
  have hd := succeeds_data h1
  obtain ⟨b1, h8, h9⟩ := bootstrapGLS_same L a hd.symm h6
  refine ⟨b1, g, h8, ?_, ?_⟩
  · rw [← h9.2.2.2.2.2.2.2.1, h7.2.2.2.2.2.2.2.1]; exact h4
  · rw [keep h3 hpost, h5, hd.2.2.2.2.1]

/-- **C51, D_J and sigma** change in no call but `jump_diffusion`, respectively `conductivity`. -/
theorem C51_others {cs : List (FitCall K)} {b b' : Boot K} (h : Succeeds cs b b') :
    ((∀ c ∈ cs, ∀ L a, c ≠ .jump L a) → b'.jumpDiffusionCoefficient = b.jumpDiffusionCoefficient) ∧
    ((∀ c ∈ cs, ∀ L C a T V, c ≠ .conductivity L C a T V) → b'.sigma = b.sigma) := by
  induction cs generalizing b with
  | nil => cases h; exact ⟨fun _ => rfl, fun _ => rfl⟩
  | cons c cs ih =>
    obtain ⟨b1, h1, h2⟩ := h
    obtain ⟨-, -, -, -, -, k1, k2⟩ := FitCall.run_ok h1
    obtain ⟨i1, i2⟩ := ih h2
    exact ⟨fun hp => (i1 fun c hc => hp c (List.mem_cons_of_mem _ hc)).trans (k1 (hp c List.mem_cons_self)),
      fun hp => (i2 fun c hc => hp c (List.mem_cons_of_mem _ hc)).trans (k2 (hp c List.mem_cons_self))⟩

/-! ## Concrete case -/

/-- Library routines for examples: no eigenvalue is changed, the sampler always accepts. -/
def exLib : GlsLib ℚ where
  curveFit _ _ _ := .ok 1
  eig _ _ := .ok (fun _ => 2, 1)
  covNearest _ A := .ok A
  slogdet _ _ := .ok 0
  pinvh _ A := .ok A
  linregress t _ := if t.length < 2 then .error .valueError else .ok (3 / 2)
  minimize _ x := .ok x
  randn _ _ := 0
  emceeCheck _ _ _ := .ok ()
  propose s w := [(s : ℚ) + 1 - 3 * w, 1 / 2]
  threshold _ _ := -1000
  dist l := if l = [] then .error .indexError else .ok ()

/-- Three intervals. -/
def exBoot : Boot ℚ where
  displacements := []
  deltaT := [1, 2, 3]
  maxObs := 1
  dt := [1, 2, 3]
  n := [2, 5, 6]
  v := [some 1, some 2, some 3]
  nO := [6, 3, 2]
  subSampleDt := 1
  dimension := "xyz"
  axes := [0, 1, 2]
  dims := 3

/-- Two walkers, five samples, one burn-in step, every second kept. -/
def exArgs (start : ℚ) (fi : Bool) : GlsArgs ℚ := { startDt := start, condMax := 100, fitIntercept := fi, nSamples := 5, nWalkers := 2, nBurn := 1, thin := 2 }

theorem ok_of_outcome {β : Type} {p : β × PyM Unit} (h : p.2.toOption = some ()) : p = (p.1, .ok ()) := by
  obtain ⟨b, o⟩ := p
  cases o with
  | error e => cases h
  | ok u => rfl

/-- A successful fit: the hypotheses of C44, C46–C49, C51, C52 hold for it; steps 3 and 5 are kept; a proposal with gradient -1 was
rejected. -/
theorem exFit : Kinisi.diffusion exLib (exArgs 2 true) exBoot = ((Kinisi.diffusion exLib (exArgs 2 true) exBoot).1, .ok ()) ∧
    (Kinisi.diffusion exLib (exArgs 2 true) exBoot).1.flatchain = some [[3, 1 / 2], [0, 1 / 2], [5, 1 / 2], [2, 1 / 2]] ∧
    (Kinisi.diffusion exLib (exArgs 2 true) exBoot).1.gradient = some [3, 0, 5, 2] ∧
    (Kinisi.diffusion exLib (exArgs 2 true) exBoot).1.diffusionCoefficient = some [1 / 20000, 0, 1 / 12000, 1 / 30000] := by
  refine ⟨ok_of_outcome (by decide +kernel), by decide +kernel, by decide +kernel, by decide +kernel⟩

/-- Without intercept the fit succeeds too. -/
example : (bootstrapGLS exLib (exArgs 2 false) exBoot).2.toOption = some () ∧ (bootstrapGLS exLib (exArgs 2 false) exBoot).1.intercept = none := by
  decide +kernel

example : Succeeds [.diffusion exLib (exArgs 1 false), .conductivity exLib ⟨6, 1, 8⟩ (exArgs 2 true) 300 1000] exBoot
    (Kinisi.conductivity exLib ⟨6, 1, 8⟩ (exArgs 2 true) 300 1000 (Kinisi.diffusion exLib (exArgs 1 false) exBoot).1).1 :=
  ⟨_, ok_of_outcome (by decide +kernel), _, ok_of_outcome (by decide +kernel), rfl⟩

/-- **C50 is violated.** After a successful fit a second one with `start_dt` beyond the last interval raises IndexError; afterwards start_dt is the new
value, and the posterior predictive of the first fit, available before, raises IndexError. -/
theorem C50_violated : ∃ (L : GlsLib ℚ) (a a' : GlsArgs ℚ) (b b1 b2 : Boot ℚ) (rvs : List ℚ → List (List (Option ℚ)) → ℕ → ℕ → List (List ℚ))
    (draw : ℕ → ℕ → ℕ), Kinisi.diffusion L a b = (b1, .ok ()) ∧ Kinisi.diffusion L a' b1 = (b2, .error .indexError) ∧
      b1.startDt = some 2 ∧ b2.startDt = some 4 ∧ (posteriorPredictive rvs draw b1 (some 2) 1).toOption.isSome = true ∧
      posteriorPredictive rvs draw b2 (some 2) 1 = .error .indexError := by
  have h2 : (bootstrapGLS exLib (exArgs 4 true) (Kinisi.diffusion exLib (exArgs 2 true) exBoot).1).2 = .error .indexError := by
    apply C44_no_interval
    have : (Kinisi.diffusion exLib (exArgs 2 true) exBoot).1.dt = [1, 2, 3] := by decide +kernel
    rw [this]
    decide +kernel
  have h3 : Kinisi.diffusion exLib (exArgs 4 true) (Kinisi.diffusion exLib (exArgs 2 true) exBoot).1 =
      (markFit (exArgs 4 true) (Kinisi.diffusion exLib (exArgs 2 true) exBoot).1, .error .indexError) := by
    have hb : bootstrapGLS exLib (exArgs 4 true) (Kinisi.diffusion exLib (exArgs 2 true) exBoot).1 =
        (markFit (exArgs 4 true) (Kinisi.diffusion exLib (exArgs 2 true) exBoot).1, .error .indexError) := by
      unfold bootstrapGLS
      rw [show diffRegime (markFit (exArgs 4 true) (Kinisi.diffusion exLib (exArgs 2 true) exBoot).1).dt (exArgs 4 true).startDt
          = .error .indexError from diffRegime_error_iff.mpr ⟨rfl, by
            have : (markFit (exArgs 4 true) (Kinisi.diffusion exLib (exArgs 2 true) exBoot).1).dt = [1, 2, 3] := by decide +kernel
            rw [this]
            decide +kernel⟩]
    rw [Kinisi.diffusion.eq_def exLib (exArgs 4 true), hb]
  refine ⟨exLib, exArgs 2 true, exArgs 4 true, exBoot, _, _, fun μ _ k _ => List.replicate k μ, fun _ i => i, exFit.1, h3, by decide +kernel, rfl,
    by decide +kernel, ?_⟩
  unfold posteriorPredictive
  have hr : diffRegime (markFit (exArgs 4 true) (Kinisi.diffusion exLib (exArgs 2 true) exBoot).1).dt 4 = .error .indexError := by
    rw [diffRegime_error_iff]
    refine ⟨rfl, ?_⟩
    have : (markFit (exArgs 4 true) (Kinisi.diffusion exLib (exArgs 2 true) exBoot).1).dt = [1, 2, 3] := by decide +kernel
    rw [this]
    decide +kernel
  have hs : startOf (markFit (exArgs 4 true) (Kinisi.diffusion exLib (exArgs 2 true) exBoot).1) = .ok 4 := rfl
  rw [hs]
  simp only [posteriorCount, bind, Except.bind, hr]

/-! ### The theorems of this file and of `Fit`, `GLS` for the concrete case -/

theorem exGls : bootstrapGLS exLib (exArgs 2 true) exBoot = ((bootstrapGLS exLib (exArgs 2 true) exBoot).1, .ok ()) :=
  ok_of_outcome (by decide +kernel)

theorem exCond : Kinisi.conductivity exLib ⟨6, 1, 8⟩ (exArgs 2 true) 300 1000 exBoot =
    ((Kinisi.conductivity exLib ⟨6, 1, 8⟩ (exArgs 2 true) 300 1000 exBoot).1, .ok ()) :=
  ok_of_outcome (by decide +kernel)

theorem exBoot_dt : exBoot.dt.Pairwise (· ≤ ·) := by decide +kernel

/-- `C46_start_nonneg`: the routines of the example start the walkers at non-negative gradients. -/
theorem exStart (n : ℕ) : ∀ ll x0 ml, exLib.minimize ll x0 = .ok ml → 0 ≤ x0.getD 0 0 → (∀ θ, ll θ = none ↔ θ.getD 0 0 < 0) →
    ∀ w ∈ initialWalkers exLib n ml, 0 ≤ w.getD 0 0 :=
  fun ll x0 ml h hx hll => C46_start_nonneg exLib n (fun f x0 x e hf => by obtain rfl := Except.ok.inj e; exact hf)
    (fun _ _ => by show (-1000 : ℚ) ≤ 0; norm_num) ll x0 ml h hx hll

/-- `C46_start_nonneg`, `C46_gradient_nonneg`, `C46_derived_nonneg`, `C47_D_count`. -/
example : (∃ g, (bootstrapGLS exLib (exArgs 2 true) exBoot).1.gradient = some g ∧ ∀ x ∈ g, 0 ≤ x) ∧
    (∃ d, (Kinisi.diffusion exLib (exArgs 2 true) exBoot).1.diffusionCoefficient = some d ∧ ∀ x ∈ d, 0 ≤ x) ∧
    ∃ d, (Kinisi.diffusion exLib (exArgs 2 true) exBoot).1.diffusionCoefficient = some d ∧ d.length = 4 :=
  ⟨C46_gradient_nonneg exGls (exStart 2), (C46_derived_nonneg (exStart 2)).1 exFit.1, C47_D_count exFit.1⟩

/-- `C48_conductivity`, `C48_scaling`, `C48_zero`. -/
example : (∃ g s, (Kinisi.conductivity exLib ⟨6, 1, 8⟩ (exArgs 2 true) 300 1000 exBoot).1.gradient = some g ∧
      (Kinisi.conductivity exLib ⟨6, 1, 8⟩ (exArgs 2 true) 300 1000 exBoot).1.sigma = some s ∧
      s = g.map fun x => 1000 * ((1 : ℚ) ^ 2 * (x / (2 * ((3 : ℕ) : ℚ)) * angstromSqPerPs) / (1000 * angstromCubed * (8 / 6) * 300))) ∧
    (∃ c, conversion (⟨6, 1, 8⟩ : Consts ℚ) 300 1000 = .ok c ∧ conversion (⟨6, 1, 8⟩ : Consts ℚ) (2 * 300) (3 * 1000) = .ok (c / (2 * 3))) ∧
    conversion (⟨6, 1, 8⟩ : Consts ℚ) 0 1000 = .error .zeroDivisionError := by
  refine ⟨C48_conductivity (by decide +kernel) exCond, ?_, C48_zero _ 0 1000 (.inl rfl)⟩
  have hs : (conversion (⟨6, 1, 8⟩ : Consts ℚ) 300 1000).toOption.isSome = true := by decide +kernel
  cases hc : conversion (⟨6, 1, 8⟩ : Consts ℚ) 300 1000 with
  | error e => rw [hc] at hs; cases hs
  | ok c => exact ⟨c, rfl, C48_scaling _ 300 1000 2 3 c (by norm_num) (by norm_num) hc⟩

/-- `C48_denominators`. -/
example : exBoot.dims ≠ 0 ∧ (1000 : ℚ) ≠ 0 ∧ (300 : ℚ) ≠ 0 := (C48_denominators (L := exLib)).2.2 exCond

/-- `C44_fit_window`, `C44_fit_points`: two of the three intervals are fitted. -/
example : SameResults (bootstrapGLS exLib (exArgs 2 true) exBoot).1 (bootstrapGLS exLib (exArgs 2 true) (restrictBoot 2 exBoot)).1 ∧
    ∃ (m : ℕ) (cov : Matrix (Fin m) (Fin m) ℚ), m = 2 ∧ (bootstrapGLS exLib (exArgs 2 true) exBoot).1.covariance = some (rowsOf cov) := by
  refine ⟨(C44_fit_window exLib (exArgs 2 true) exBoot exBoot_dt rfl rfl rfl).2, ?_⟩
  obtain ⟨-, m, cov, chain, hm, hc, -⟩ := C44_fit_points exBoot_dt rfl rfl rfl exGls
  exact ⟨m, cov, hm.trans (by decide +kernel), hc⟩

/-- `C52_posterior_predictive`, `C49_with_intercept_partial`. -/
example : (∃ rows, posteriorPredictive (fun μ _ k _ => List.replicate k μ) (fun _ _ => 0) (bootstrapGLS exLib (exArgs 2 true) exBoot).1 (some 2) 3 =
      .ok rows ∧ rows.length = 2 * 3 ∧ ∀ row ∈ rows, row.length = (exBoot.dt.filter fun x => decide (2 ≤ x)).length) ∧
    ∃ rows, distribution (Kinisi.diffusion exLib (exArgs 2 true) exBoot).1 = .ok rows ∧ rows.length = 3 ∧ ∀ row ∈ rows, row.length = 4 := by
  refine ⟨C52_posterior_predictive exBoot_dt rfl rfl ?_ rfl (by decide) (by decide) exGls (fun μ _ k _ => List.replicate k μ) ?_ _
    (fun _ _ h => h) (some 2) 3, (C49_with_intercept_partial rfl exFit.1).1⟩
  · intro t y s h
    by_contra hlt
    have : exLib.linregress t y = .error .valueError := if_pos (by omega)
    rw [this] at h
    cases h
  · intro μ c k i
    exact ⟨by simp, fun row hrow => by rw [List.eq_of_mem_replicate hrow]⟩

/-- `C50_failed_fit_partial`: a fit from an interval that does not exist. -/
example : (bootstrapGLS exLib (exArgs 4 true) exBoot).2 = .error .indexError ∧
    ∀ b' e, FitCall.run (.diffusion exLib (exArgs 4 true)) exBoot = (b', .error e) → b'.n = [2, 5, 6] := by
  refine ⟨C44_no_interval _ _ _ (by decide +kernel), fun b' e h => ?_⟩
  exact (C50_failed_fit_partial h).1.2.2.2.2.1

/-- `C51_history`, `C51_consistent`, `C51_D` and `C51_others` for two fits in a row. -/
example : ∃ b', (∃ b1, bootstrapGLS exLib (exArgs 2 true) exBoot = (b1, .ok ()) ∧ SameFit b' b1) ∧ b'.startDt = some 2 ∧
    (∃ b1 g, bootstrapGLS exLib (exArgs 1 false) exBoot = (b1, .ok ()) ∧ b1.gradient = some g ∧
      b'.diffusionCoefficient = some (g.map fun x => x / (2 * ((3 : ℕ) : ℚ)) * angstromSqPerPs)) ∧ b'.jumpDiffusionCoefficient = none := by
  have h : Succeeds ([.diffusion exLib (exArgs 1 false)] ++ [.conductivity exLib ⟨6, 1, 8⟩ (exArgs 2 true) 300 1000]) exBoot
      (Kinisi.conductivity exLib ⟨6, 1, 8⟩ (exArgs 2 true) 300 1000 (Kinisi.diffusion exLib (exArgs 1 false) exBoot).1).1 :=
    ⟨_, ok_of_outcome (by decide +kernel), _, ok_of_outcome (by decide +kernel), rfl⟩
  have h' : Succeeds ([] ++ .diffusion exLib (exArgs 1 false) :: [.conductivity exLib ⟨6, 1, 8⟩ (exArgs 2 true) 300 1000]) exBoot
      (Kinisi.conductivity exLib ⟨6, 1, 8⟩ (exArgs 2 true) 300 1000 (Kinisi.diffusion exLib (exArgs 1 false) exBoot).1).1 := h
  refine ⟨_, C51_history h, (C51_consistent h exBoot_dt rfl rfl rfl).1, C51_D h' ?_, (C51_others h).1 ?_⟩
  · intro c hc L a e
    rw [List.mem_singleton.mp hc] at e
    cases e
  · intro c hc L a e
    simp only [List.cons_append, List.nil_append, List.mem_cons, List.not_mem_nil, or_false] at hc
    rcases hc with rfl | rfl <;> cases e

end Kinisi
