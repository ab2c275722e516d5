import Verif.Spec.FitRuns
import Verif.Props.Fit
import Verif.Props.Covariance
import Verif.Props.EndToEndTotal
import Mathlib.Tactic.LinearCombination
import Mathlib.Analysis.Matrix.Spectrum

/-!
C130: valid fits run without an exception.
-/

set_option linter.unusedSectionVars false
set_option linter.unusedVariables false

namespace Kinisi

open Spec

variable {K : Type} [Field K] [LinearOrder K] [IsStrictOrderedRing K] [FloorRing K] {G : Type}

/-! ## The covariance matrix -/

theorem exists_ofFn_some {l : List (Option K)} (h : ∀ x ∈ l, ∃ y, x = some y ∧ 0 < y) {m : ℕ} (hm : l.length = m) :
    ∃ f : Fin m → K, l = List.ofFn (fun i => some (f i)) ∧ ∀ i, 0 < f i := by
  subst hm
  have h' : ∀ i : Fin l.length, ∃ y, l[i] = some y ∧ 0 < y := fun i => h _ (List.getElem_mem _)
  choose f hf using h'
  refine ⟨f, ?_, fun i => (hf i).2⟩
  apply List.ext_getElem
  · simp
  · intro i h1 h2
    rw [List.getElem_ofFn]
    exact (hf ⟨i, h1⟩).1

theorem exists_ofFn {l : List K} (h : ∀ x ∈ l, 0 < x) {m : ℕ} (hm : l.length = m) :
    ∃ f : Fin m → K, l = List.ofFn f ∧ ∀ i, 0 < f i := by
  subst hm
  refine ⟨fun i => l[i], ?_, fun i => h _ (List.getElem_mem _)⟩
  apply List.ext_getElem
  · simp
  · intro i h1 h2
    rw [List.getElem_ofFn]
    rfl

theorem finiteMatrix_rowsOf {m : ℕ} (A : Matrix (Fin m) (Fin m) K) : finiteMatrix m (rowsOf A) = some A := by
  have h : ∀ i j : Fin m, getEntry (rowsOf A) i j = some (some (A i j)) := by
    intro i j
    simp [getEntry, rowsOf]
  unfold finiteMatrix
  rw [if_pos (by simp [h])]
  congr 1
  funext i j
  rw [h]
  rfl

/-- Raising eigenvalues does not make a diagonal entry smaller. -/
theorem clipped_diag {m : ℕ} (V : Matrix (Fin (m + 1)) (Fin (m + 1)) K) (ev : Fin (m + 1) → K) (c : K) (i : Fin (m + 1)) :
    (V * Matrix.diagonal ev * V.transpose) i i ≤ (V * Matrix.diagonal (clippedEigenvalues ev c) * V.transpose) i i := by
  rw [Matrix.mul_apply, Matrix.mul_apply]
  simp only [Matrix.mul_diagonal, Matrix.transpose_apply]
  apply Finset.sum_le_sum
  intro k _
  have h1 : ev k ≤ clippedEigenvalues ev c k := by
    unfold clippedEigenvalues
    split_ifs with h
    · exact h.le
    · exact le_rfl
  have h2 := mul_le_mul_of_nonneg_left h1 (mul_self_nonneg (V i k))
  linarith

theorem symm_form {m : ℕ} (V : Matrix (Fin m) (Fin m) K) (d : Fin m → K) :
    (V * Matrix.diagonal d * V.transpose).transpose = V * Matrix.diagonal d * V.transpose := by
  rw [Matrix.transpose_mul, Matrix.transpose_mul, Matrix.transpose_transpose, Matrix.diagonal_transpose, Matrix.mul_assoc]

theorem condition_runs {L : GlsLib K} {nd nw : ℕ} (hL : LibraryRuns L nd nw) {m : ℕ} (v n : Fin (m + 1) → K) (hv : ∀ i, 0 < v i)
    (hn : ∀ i, 0 < n i) {c : K} (hc : c ≠ 0) :
    ∃ M A, populateCovariance (List.ofFn fun i => some (v i)) (List.ofFn n) = .ok M ∧ condition L (m + 1) M c = .ok A ∧ PD A := by
  obtain ⟨A, h1, h2, h3, -⟩ := C40_covariance v n [] fun i => (hn i).ne'
  rw [List.append_nil] at h1
  obtain ⟨ev, V, h4, h5⟩ := hL.eig m A (by funext i j; exact h2 j i)
  obtain ⟨B, h6, h7⟩ := hL.covNearest (m + 1) (V * Matrix.diagonal (clippedEigenvalues ev c) * V.transpose) (symm_form _ _) (by
    intro i
    have := clipped_diag V ev c i
    rw [h5, h3] at this
    exact lt_of_lt_of_le (hv i) this)
  refine ⟨rowsOf A, B, h1, ?_, h7⟩
  unfold condition
  simp only
  rw [finiteMatrix_rowsOf]
  simp only [minimumEigenvalueMethod]
  rw [h4]
  simp only
  rw [if_neg hc]
  exact h6

/-! ## The chain -/

theorem initialWalkers_rows (L : GlsLib K) (nw : ℕ) (ml : List K) : ∀ r ∈ initialWalkers L nw ml, r.length = ml.length := by
  intro r hr
  obtain ⟨w, -, rfl⟩ := List.mem_map.mp hr
  simp

theorem initialWalkers_general {L : GlsLib K} {nd nw : ℕ} (hL : LibraryRuns L nd nw) {ml : List K} (hl : ml.length = nd) (hne : ∀ y ∈ ml, y ≠ 0) :
    GeneralPosition nd (initialWalkers L nw ml) := by
  subst hl
  intro c0 c h
  have h1 := hL.randn (c0 + ∑ k : Fin ml.length, c k * ml[k]) (fun k => c k * (ml[k] * (1 / 1000))) (by
    intro r hr
    obtain ⟨w, hw, rfl⟩ := List.mem_map.mp hr
    have h2 := h _ (List.mem_map.mpr ⟨w, hw, rfl⟩)
    rw [← h2, add_assoc, ← Finset.sum_add_distrib]
    congr 1
    apply Finset.sum_congr rfl
    intro k _
    simp
    ring)
  funext k
  have h3 := congrFun h1 k
  simp only [Pi.zero_apply] at h3 ⊢
  rcases mul_eq_zero.mp h3 with h | h
  · exact h
  · exfalso
    rcases mul_eq_zero.mp h with h | h
    · exact hne _ (List.getElem_mem _) h
    · norm_num at h

theorem ensembleStep_rows {L : GlsLib K} {nd : ℕ} (hp : ∀ s w, (L.propose s w).length = nd) (ll : List K → Option K) (s : ℕ) {ws : List (List K)}
    (hw : ∀ w ∈ ws, w.length = nd) : ∀ w ∈ ensembleStep L ll s ws, w.length = nd := by
  intro w hm
  unfold ensembleStep at hm
  obtain ⟨q, hq, rfl⟩ := List.mem_map.mp hm
  have hq1 : q.1 ∈ ws := by
    obtain ⟨a, b⟩ := q
    have := List.mem_zipIdx hq
    simp only at this ⊢
    rw [this.2.2]
    exact List.getElem_mem _
  unfold metropolis
  split
  · exact hw _ hq1
  · exact hp _ _
  · split_ifs
    · exact hp _ _
    · exact hw _ hq1

theorem runChain_rows {L : GlsLib K} {nd : ℕ} (hp : ∀ s w, (L.propose s w).length = nd) (ll : List K → Option K) (n : ℕ) :
    ∀ (s : ℕ) (ws : List (List K)), (∀ w ∈ ws, w.length = nd) → ∀ e ∈ runChain L ll n s ws, ∀ w ∈ e, w.length = nd := by
  induction n with
  | zero => intro s ws _ e he; cases he
  | succ n ih =>
    intro s ws hw e he
    simp only [runChain] at he
    rcases List.mem_cons.mp he with rfl | he
    · exact ensembleStep_rows hp ll s hw
    · exact ih _ _ (ensembleStep_rows hp ll s hw) e he

theorem startPoint_length (fi : Bool) (s : K) : (startPoint fi s).length = parameters fi := by cases fi <;> rfl

theorem startPoint_finite {m : ℕ} (logdet : K) (inv : Matrix (Fin m) (Fin m) K) (t y : Fin m → K) (fi : Bool) (s : K) :
    logLikelihood logdet inv t y (startPoint fi s) ≠ none := by
  have h : ¬ (startPoint fi s).getD 0 0 < 0 := by
    unfold startPoint
    have : ¬ (if s < 0 then (1 : K) / 10 ^ 20 else s) < 0 := by
      split_ifs with h
      · exact not_lt.mpr (by positivity)
      · exact h
    cases fi <;> simpa using this
  unfold logLikelihood
  rw [if_neg h]
  simp

theorem sampleChain_runs {L : GlsLib K} {a : GlsArgs K} (hL : LibraryRuns L (parameters a.fitIntercept) a.nWalkers) {dt : List K} (ha : ValidFit a dt)
    {m : ℕ} {cov : Matrix (Fin m) (Fin m) K} (hc : PD cov) {t y : List K} (ht : t.length = m) (hy : y.length = m) (h2 : 2 ≤ m)
    (hi : t.Pairwise (· < ·)) :
    ∃ chain, sampleChain L a t y m cov = .ok chain ∧ chain ≠ [] ∧ ∀ r ∈ chain, r.length = parameters a.fitIntercept := by
  obtain ⟨ld, h3⟩ := hL.slogdet m cov hc
  obtain ⟨inv, h4⟩ := hL.pinvh m cov hc
  obtain ⟨s, h5⟩ := hL.linregress t y (by rw [ht, hy]) (by omega) hi
  obtain ⟨ml, h6, h7, h8⟩ := hL.minimize (logLikelihood ld inv (fun i : Fin m => t.getD i 0) fun i => y.getD i 0) (startPoint a.fitIntercept s)
    (startPoint_length _ _) (startPoint_finite _ _ _ _ _ _)
  have hrows : ∀ r ∈ initialWalkers L a.nWalkers ml, r.length = parameters a.fitIntercept := fun r hr => by
    rw [initialWalkers_rows L _ _ r hr, h7]
  have hlen : (initialWalkers L a.nWalkers ml).length = a.nWalkers := by simp [initialWalkers]
  have h9 := hL.emceeCheck _ hlen hrows ha.walkers (initialWalkers_general hL h7 h8)
  have hthin := ha.thin
  have hsamples := ha.samples
  have hw : 1 ≤ a.nWalkers := by
    have := ha.walkers
    unfold parameters at this
    split_ifs at this <;> omega
  unfold sampleChain
  simp only [bind, Except.bind]
  rw [h3]
  simp only
  rw [h4]
  simp only
  rw [if_neg (by omega), h5]
  simp only
  rw [h6]
  simp only
  rw [h7, h9]
  simp only [getChain]
  rw [if_neg (by rw [runChain_length]; omega), if_neg (by omega)]
  refine ⟨_, rfl, ?_, ?_⟩
  · intro he
    rw [List.flatten_eq_nil_iff] at he
    obtain ⟨run, hrun⟩ : ∃ run, run = runChain L (logLikelihood ld inv (fun i : Fin m => t.getD i 0) fun i => y.getD i 0) (a.nSamples + a.nBurn) 0
        (initialWalkers L a.nWalkers ml) := ⟨_, rfl⟩
    rw [← hrun] at he
    have hr : run.length = a.nSamples + a.nBurn := by rw [hrun, runChain_length]
    have h0 := stride_getElem? a.thin (by omega) (run.drop (a.nBurn + a.thin - 1)) 0
    rw [Nat.mul_zero, List.getElem?_drop, List.getElem?_eq_getElem (show a.nBurn + a.thin - 1 + 0 < run.length by omega)] at h0
    have h10 := he _ (List.mem_of_getElem? h0)
    have hall : ∀ e ∈ run, e.length = (initialWalkers L a.nWalkers ml).length := by rw [hrun]; exact runChain_walkers L _ _ _ _
    have h11 := hall _ (List.getElem_mem (show a.nBurn + a.thin - 1 + 0 < run.length by omega))
    rw [h10, hlen] at h11
    simp at h11
    omega
  · intro r hr
    obtain ⟨e, he, hr⟩ := List.mem_flatten.mp hr
    exact runChain_rows hL.propose _ _ _ _ hrows e (List.mem_of_mem_drop (stride_mem he)) r hr

theorem column_runs {L : GlsLib K} {nd nw : ℕ} (hL : LibraryRuns L nd nw) {chain : List (List K)} (hne : chain ≠ []) (hr : ∀ r ∈ chain, r.length = nd)
    {k : ℕ} (hk : k < nd) : ∃ c, chainColumn L k chain = .ok c ∧ c ≠ [] := by
  have h1 : chain.mapM (fun row => pyGet row k) = .ok (chain.map fun row => row.getD k 0) := by
    apply mapM_ok_map
    intro r hm
    have := hr r hm
    rw [List.getD_eq_getElem?_getD, List.getElem?_eq_getElem (by omega)]
    exact pyGet_ok (List.getElem?_eq_getElem _)
  have h2 : (chain.map fun row => row.getD k 0) ≠ [] := by simpa using hne
  unfold chainColumn
  simp only [bind, Except.bind]
  rw [h1]
  simp only
  rw [hL.dist _ h2]
  exact ⟨_, rfl, h2⟩

/-! ## The fit -/

theorem chooseVariances_runs {L : GlsLib K} {nd nw : ℕ} (hL : LibraryRuns L nd nw) (model : Bool) {b : Boot K} {r : ℕ} (hb : Fittable b)
    (hr : r < b.dt.length) :
    ∃ b1 v, chooseVariances L model b r = (b1, .ok v) ∧ b1.nO = b.nO ∧ v.length = b.dt.length - r ∧ ∀ x ∈ v, ∃ y, x = some y ∧ 0 < y := by
  have e1 := hb.values
  have e2 := hb.variances
  have e3 := hb.counts
  unfold chooseVariances
  cases model with
  | false =>
    refine ⟨_, _, rfl, rfl, by rw [List.length_drop, e2], fun x hx => hb.positiveVariances x (List.mem_of_mem_drop hx)⟩
  | true =>
    have hn : ∀ x ∈ b.nO.drop r, 0 < x := fun x hx => hb.positiveCounts x (List.mem_of_mem_drop hx)
    have ht : ∀ x ∈ b.dt.drop r, 0 < x := fun x hx => hb.positiveTimes x (List.mem_of_mem_drop hx)
    obtain ⟨c, h1, h2⟩ := hL.curveFit (b.nO.drop r) (b.dt.drop r) (b.v.drop r) (by rw [List.length_drop, List.length_drop, e3])
      (by rw [List.length_drop, List.length_drop, e3, e2]) (by
        intro h
        have := congrArg List.length h
        rw [List.length_drop, e3, List.length_nil] at this
        omega) hn ht fun x hx => hb.positiveVariances x (List.mem_of_mem_drop hx)
    simp only [if_true, modelBranch]
    rw [h1]
    simp only [modelVariance]
    rw [if_pos (by rw [List.length_drop, List.length_drop, e3])]
    refine ⟨_, _, rfl, rfl, by rw [List.length_map, List.length_zip, List.length_drop, List.length_drop, e3, min_self], ?_⟩
    intro x hx
    obtain ⟨⟨p, q⟩, hp, rfl⟩ := List.mem_map.mp hx
    obtain ⟨hp, hq⟩ := List.of_mem_zip hp
    refine ⟨c / p * q ^ 2, ?_, by have := hn p hp; have := ht q hq; positivity⟩
    simp [npMul, npDiv, (hn p hp).ne']

/-- **C130, the fit.** Data with positive variances, two intervals from `start_dt` on, enough walkers and samples, and libraries that do their work:
the fit succeeds, with or without intercept and with either covariance model. -/
theorem C130_fit (L : GlsLib K) (a : GlsArgs K) (b : Boot K) (hL : LibraryRuns L (parameters a.fitIntercept) a.nWalkers) (hb : Fittable b)
    (ha : ValidFit a b.dt) : ∃ b' g, bootstrapGLS L a b = (b', .ok ()) ∧ b'.gradient = some g ∧ g ≠ [] ∧ b'.dims = b.dims ∧
      b'.displacements = b.displacements := by
  -- the start
  have hreg := ha.regime
  obtain ⟨r, hr⟩ : ∃ r, diffRegime b.dt a.startDt = .ok r := by
    cases h : diffRegime b.dt a.startDt with
    | ok r => exact ⟨r, rfl⟩
    | error e =>
      exfalso
      have h1 := (diffRegime_error_iff.mp h).2
      rw [List.filter_eq_nil_iff.mpr (by intro x hx; simpa using h1 x hx)] at hreg
      simp at hreg
  obtain ⟨hrl, hr1, hr2⟩ := diffRegime_ok_iff.mp hr
  have hcount : 2 ≤ b.dt.length - r := by
    have h1 : b.dt = b.dt.take r ++ b.dt.drop r := (List.take_append_drop r b.dt).symm
    rw [h1, List.filter_append, List.length_append] at hreg
    have h2 : (b.dt.take r).filter (fun t => decide (a.startDt ≤ t)) = [] := by
      rw [List.filter_eq_nil_iff]
      intro x hx
      obtain ⟨j, hj, rfl⟩ := List.getElem_of_mem hx
      rw [List.length_take] at hj
      rw [List.getElem_take]
      simpa using hr2 j (by omega)
    rw [h2] at hreg
    have h3 := List.length_filter_le (fun t => decide (a.startDt ≤ t)) (b.dt.drop r)
    rw [List.length_drop] at h3
    simp only [List.length_nil] at hreg
    omega
  -- the covariance matrix
  have hb' : Fittable (markFit a b) := ⟨hb.values, hb.variances, hb.counts, hb.increasing, hb.positiveTimes, hb.positiveCounts, hb.positiveVariances⟩
  obtain ⟨b1, v, hcv, hnO, hvl, hvp⟩ := chooseVariances_runs hL a.model hb' (r := r) hrl
  rw [show (markFit a b).dt = b.dt from rfl] at hvl
  rw [show (markFit a b).nO = b.nO from rfl] at hnO
  obtain ⟨m, hm⟩ : ∃ m, b.dt.length - r = m + 1 := ⟨b.dt.length - r - 1, by omega⟩
  obtain ⟨f, hf1, hf2⟩ := exists_ofFn_some hvp (hvl.trans hm)
  obtain ⟨n, hn1, hn2⟩ := exists_ofFn (l := b.nO.drop r) (fun x hx => hb.positiveCounts x (List.mem_of_mem_drop hx)) (m := m + 1)
    (by rw [List.length_drop, hb.counts, hm])
  obtain ⟨M, A, hM, hA, hpd⟩ := condition_runs hL f n hf2 hn2 ha.condMax
  have hA' : ∀ k, k = m + 1 → ∃ A', condition L k M a.condMax = .ok A' ∧ PD A' := by
    rintro _ rfl
    exact ⟨A, hA, hpd⟩
  have hgen : ∃ b2 k A', generateCovariance L a (markFit a b) r = (b2, .ok ⟨k, A'⟩) ∧ k = m + 1 ∧ PD A' := by
    unfold generateCovariance
    rw [hcv]
    simp only
    rw [hnO, hn1, hf1, hM]
    simp only
    obtain ⟨A', h1, h2⟩ := hA' (List.ofFn fun i => some (f i)).length (List.length_ofFn)
    rw [h1]
    exact ⟨_, _, A', rfl, List.length_ofFn, h2⟩
  obtain ⟨b2, k, A', hgen, hk, hpd'⟩ := hgen
  obtain ⟨⟨_, _, _, _, _, _, _, hb2⟩, -⟩ := generateCovariance_pre hgen
  have hdt : b2.dt = b.dt := by rw [hb2]; rfl
  have hnn : b2.n = b.n := by rw [hb2]; rfl
  have hdims : b2.dims = b.dims := by rw [hb2]; rfl
  have hdisp : b2.displacements = b.displacements := by rw [hb2]; rfl
  -- the chain
  obtain ⟨chain, h1, h2, h3⟩ := sampleChain_runs hL ha hpd' (t := b.dt.drop r) (y := b.n.drop r) (by rw [List.length_drop, hm, hk])
    (by rw [List.length_drop, hb.values, hm, hk]) (by omega) (hb.increasing.sublist (List.drop_sublist _ _))
  have hpar : 1 ≤ parameters a.fitIntercept := by unfold parameters; split_ifs <;> omega
  obtain ⟨g, h4, h5⟩ := column_runs hL h2 h3 (k := 0) (by omega)
  unfold bootstrapGLS
  rw [show (markFit a b).dt = b.dt from rfl, hr]
  simp only [fitFrom]
  rw [hgen]
  simp only
  rw [hdt, hnn, h1]
  simp only [storeChain]
  rw [h4]
  simp only
  by_cases hfi : a.fitIntercept = true
  · obtain ⟨c, h6, -⟩ := column_runs hL h2 h3 (k := 1) (by unfold parameters; rw [if_pos hfi]; omega)
    rw [if_pos hfi, h6]
    exact ⟨_, g, rfl, rfl, h5, hdims, hdisp⟩
  · rw [if_neg hfi]
    exact ⟨_, g, rfl, rfl, h5, hdims, hdisp⟩

theorem scaled_runs {L : GlsLib K} {nd nw : ℕ} (hL : LibraryRuns L nd nw) {c : K} (hc : c ≠ 0) {g : List K} (hg : g ≠ []) :
    ∃ d, scaled L c (some g) = .ok d := by
  unfold scaled samplesOf
  simp only
  rw [if_neg hc, hL.dist _ (by simpa using hg)]
  exact ⟨_, rfl⟩

/-- **C130, the results.** So do `diffusion` and, with displacements of at least one atom, `jump_diffusion`, and at a non-zero temperature in a
non-zero volume `conductivity`. -/
theorem C130_results (L : GlsLib K) (a : GlsArgs K) (b : Boot K) (hL : LibraryRuns L (parameters a.fitIntercept) a.nWalkers) (hb : Fittable b)
    (ha : ValidFit a b.dt) (hd : b.dims ≠ 0) :
    (∃ b', diffusion L a b = (b', .ok ())) ∧
    (∀ d0 rest, b.displacements = d0 :: rest → d0.n0 ≠ 0 → ∃ b', jumpDiffusion L a b = (b', .ok ())) ∧
    ∀ (C : Consts K) (T V : K), C.nA ≠ 0 → C.R ≠ 0 → T ≠ 0 → V ≠ 0 → ∃ b', conductivity L C a T V b = (b', .ok ()) := by
  obtain ⟨b', g, h1, h2, h3, h4, h5⟩ := C130_fit L a b hL hb ha
  have hdK : ((b.dims : ℕ) : K) ≠ 0 := by exact_mod_cast hd
  refine ⟨?_, ?_, ?_⟩
  · unfold diffusion
    rw [h1]
    simp only
    obtain ⟨d, hs⟩ := scaled_runs hL (c := 20000 * (b'.dims : K)) (by rw [h4]; exact mul_ne_zero (by norm_num) hdK) h3
    rw [h2, hs]
    exact ⟨_, rfl⟩
  · intro d0 rest e hn
    unfold jumpDiffusion
    rw [h1]
    simp only
    rw [h5, e]
    simp only
    obtain ⟨d, hs⟩ := scaled_runs hL (c := 20000 * (b'.dims : K) * (d0.n0 : K)) (by
      rw [h4]; exact mul_ne_zero (mul_ne_zero (by norm_num) hdK) (by exact_mod_cast hn)) h3
    rw [h2, hs]
    exact ⟨_, rfl⟩
  · intro C T V c1 c2 c3 c4
    unfold conductivity
    rw [h1]
    simp only
    rw [h2]
    simp only [samplesOf, conversion]
    rw [if_neg (by positivity), if_neg (mul_ne_zero c2 c3)]
    simp only
    rw [if_neg (by rw [h4]; exact hd), hL.dist _ (by simpa using h3)]
    exact ⟨_, rfl⟩

/-! ## Estimates that can be fitted -/

/-- Two different values. -/
def Varied (l : List K) : Prop := ∃ x ∈ l, ∃ y ∈ l, x ≠ y

theorem npVar1_pos {l : List K} (h : Varied l) : ∃ y, npVar1 l = some y ∧ 0 < y := by
  obtain ⟨x, hx, y, hy, hne⟩ := h
  have h2 : 2 ≤ l.length := by
    match l, hx, hy with
    | [z], hx, hy =>
      rw [List.mem_singleton] at hx hy
      exact absurd (hx.trans hy.symm) hne
    | _ :: _ :: _, _, _ => simp
  have hK : (2 : K) ≤ (l.length : K) := by exact_mod_cast h2
  refine ⟨_, npVar1_eq h2, ?_⟩
  apply div_pos _ (by linarith)
  have hn : ∀ z ∈ l.map fun x => (x - l.sum / l.length) ^ 2, 0 ≤ z := by
    intro z hz
    obtain ⟨w, -, rfl⟩ := List.mem_map.mp hz
    positivity
  by_contra hle
  have h0 : ∀ z ∈ l.map fun x => (x - l.sum / l.length) ^ 2, z = 0 := fun z hz =>
    List.all_zero_of_le_zero_le_of_sum_eq_zero hn (le_antisymm (not_lt.mp hle) (List.sum_nonneg hn)) hz
  have hx0 := h0 _ (List.mem_map.mpr ⟨x, hx, rfl⟩)
  have hy0 := h0 _ (List.mem_map.mpr ⟨y, hy, rfl⟩)
  exact hne (by linarith [pow_eq_zero_iff (two_ne_zero) |>.mp hx0, pow_eq_zero_iff (two_ne_zero) |>.mp hy0])

theorem fittable_of_recorded {sq : K → K} {o : Oracle K G} {opt : BootOpts K} (hblock : opt.block = false) {Q : Quantity K} {nO : List K} {b0 b : Boot K}
    {P : ℕ} (hrec : Recorded sq o opt Q nO b0 P b) (hnO : b.nO = nO.take P) (hpos : ∀ x ∈ nO, 0 < x)
    (heff : ∀ a ∈ b0.displacements, ∀ x, 0 < x → ∃ e, Q.eff x a.n0 = some e ∧ 0 < e)
    (hvar : ∀ a ∈ b0.displacements, ∀ l, Q.sample a = .ok l → 2 ≤ l.length → Varied l)
    (hinc : b.dt.Pairwise (· < ·)) (htime : ∀ t ∈ b.dt, 0 < t) : Fittable b := by
  have hlen : b.nO.length = P := by
    rw [hnO, List.length_take]
    rcases Nat.eq_zero_or_pos P with h | h
    · omega
    · obtain ⟨a, l, m, w, t, e1, e2, e3, e4, -⟩ := hrec.entry (P - 1) (by omega)
      unfold Estimate at e4
      rw [hblock] at e4
      obtain ⟨no, f1, -⟩ := e4
      have := (List.getElem?_eq_some_iff.mp f1).1
      omega
  refine ⟨by rw [hrec.ln, hrec.ldt], by rw [hrec.lv, hrec.ldt], by rw [hlen, hrec.ldt], hinc, htime, ?_, ?_⟩
  · intro x hx
    rw [hnO] at hx
    exact hpos x (List.mem_of_mem_take hx)
  · intro x hx
    obtain ⟨i, hi, rfl⟩ := List.getElem_of_mem hx
    obtain ⟨a, l, m, w, t, e1, e2, e3, e4, e5, e6, e7, -⟩ := hrec.entry i (by rw [← hrec.lv]; exact hi)
    unfold Estimate at e4
    rw [hblock] at e4
    obtain ⟨no, f1, -, f3⟩ := e4
    obtain ⟨y, hy, hy0⟩ := npVar1_pos (hvar a (List.mem_of_getElem? e1) l e2 e3)
    obtain ⟨e, he, he0⟩ := heff a (List.mem_of_getElem? e1) no (hpos no (List.mem_of_getElem? f1))
    rw [List.getElem?_eq_getElem hi] at e7
    rw [Option.some.inj e7, f3, hy, he]
    exact ⟨y / e, by simp [npDiv, he0.ne'], by positivity⟩

theorem dims_pos {d : String} {sel : AxisSel} (h : dimensionSlice d = .ok sel) : dimensionDims d ≠ 0 := by
  have hm := dimensionSlice_inv h
  unfold dimensionDims
  generalize d.toLower = e at hm
  unfold dimensionality at hm
  simp only [List.mem_cons, List.not_mem_nil, or_false, Prod.mk.injEq] at hm
  rcases hm with ⟨rfl, rfl⟩ | ⟨rfl, rfl⟩ | ⟨rfl, rfl⟩ | ⟨rfl, rfl⟩ | ⟨rfl, rfl⟩ | ⟨rfl, rfl⟩ | ⟨rfl, rfl⟩ <;>
    decide

theorem mem_dSquared {axes : List (Fin 3)} (hn : axes.Nodup) (a : Arr3 K) {p : ℕ × ℕ} (hp : p ∈ pairs a) :
    sqLen axes.toFinset a p ∈ dSquared axes a := by
  obtain ⟨i, k⟩ := p
  unfold pairs at hp
  rw [Finset.mem_product, Finset.mem_range, Finset.mem_range] at hp
  unfold dSquared sqLen
  rw [List.mem_flatMap]
  refine ⟨i, List.mem_range.mpr hp.1, List.mem_map.mpr ⟨k, List.mem_range.mpr hp.2, ?_⟩⟩
  rw [sum_axes_list hn]

theorem varied_range {n : ℕ} {f : ℕ → K} (h : ∃ k < n, ∃ l < n, f k ≠ f l) : Varied ((List.range n).map f) := by
  obtain ⟨k, hk, l, hl, hne⟩ := h
  exact ⟨_, List.mem_map.mpr ⟨k, List.mem_range.mpr hk, rfl⟩, _, List.mem_map.mpr ⟨l, List.mem_range.mpr hl, rfl⟩, hne⟩

/-- **C130, from the analysis to D.** The atoms move: in every interval not all squared displacements are equal.  Then after a successful analysis every
fit with sensible arguments succeeds. -/
theorem C130_diffusion (L : GlsLib K) (a : GlsArgs K) (hL : LibraryRuns L (parameters a.fitIntercept) a.nWalkers) (sq : K → K) (o : Oracle K G) (g g' : G)
    (U : UncParams K) (hblock : U.opt.block = false) (base : PyM (Base K)) (Z : Analyzer K) (h : diffusionAnalyzer sq o g U base = .ok (Z, g'))
    (hnO : ∀ x ∈ Z.nO, 0 < x) (hinc : Z.diff.dt.Pairwise (· < ·)) (htime : ∀ t ∈ Z.diff.dt, 0 < t)
    (hmove : ∀ d ∈ Z.disp3d, 2 ≤ d.n0 * d.n1 → ∃ p ∈ pairs d, ∃ q ∈ pairs d, sqLen (axesOf U.dimension) d p ≠ sqLen (axesOf U.dimension) d q)
    (ha : ValidFit a Z.diff.dt) : ∃ b', diffusion L a Z.diff = (b', .ok ()) := by
  obtain ⟨B, -, rfl, hm⟩ := diffusion_inv h
  obtain ⟨b0, P, hb0, hP, hrec, hskip, b1, hf, hb⟩ := msdBootstrap_inv hm
  obtain ⟨ds, dts, sel, d0, h1, h2, h3, h4, rfl⟩ := bootInit_inv hb0
  obtain ⟨hn, hA, -⟩ := dimensionSlice_axes h3
  have hfit : Fittable Z.diff := by
    refine fittable_of_recorded hblock hrec (by rw [hb]) hnO (fun d hd x hx => ⟨x, rfl, hx⟩) ?_ hinc htime
    intro d hd l hl h2l
    obtain rfl := Except.ok.inj hl
    dsimp only at h2l
    rw [dSquared_length] at h2l
    obtain ⟨p, hp, q, hq, hne⟩ := hmove d (pyStride_mem h1 hd) h2l
    rw [← hA] at hne
    exact ⟨_, mem_dSquared hn d hp, _, mem_dSquared hn d hq, hne⟩
  have hdim : Z.diff.dims ≠ 0 := by
    rw [hb]
    show b1.dims ≠ 0
    rw [hf]
    exact dims_pos h3
  exact (C130_results L a Z.diff hL hfit ha hdim).1

theorem eff_pos {no : K} (h : 0 < no) {n : ℕ} (hn : 0 < n) : ∃ e, npDiv (some no) (some (n : K)) = some e ∧ 0 < e := by
  have hK : (0 : K) < (n : K) := by exact_mod_cast hn
  exact ⟨no / n, by simp [npDiv, hn.ne'], by positivity⟩

/-- **C130, from the analysis to D_J.** The collective displacement varies in every interval with two observations. -/
theorem C130_jump (L : GlsLib K) (a : GlsArgs K) (hL : LibraryRuns L (parameters a.fitIntercept) a.nWalkers) (sq : K → K) (o : Oracle K G) (g g' : G)
    (U : UncParams K) (hblock : U.opt.block = false) (base : PyM (Base K)) (Z : Analyzer K) (h : jumpAnalyzer sq o g U base = .ok (Z, g'))
    (hnO : ∀ x ∈ Z.nO, 0 < x) (hN : ∀ d ∈ Z.disp3d, 0 < d.n0) (hinc : Z.diff.dt.Pairwise (· < ·)) (htime : ∀ t ∈ Z.diff.dt, 0 < t)
    (hmove : ∀ d ∈ Z.disp3d, 2 ≤ d.n1 → ∃ k < d.n1, ∃ l < d.n1, sqSum (axesOf U.dimension) (fun _ => 1) d k ≠ sqSum (axesOf U.dimension) (fun _ => 1) d l)
    (ha : ValidFit a Z.diff.dt) : ∃ b', jumpDiffusion L a Z.diff = (b', .ok ()) := by
  obtain ⟨B, -, rfl, hm⟩ := jump_inv h
  obtain ⟨b0, P, hb0, hP, hrec, hskip, b1, hf, hb⟩ := mstdBootstrap_inv hm
  obtain ⟨ds, dts, sel, d0, h1, h2, h3, h4, rfl⟩ := bootInit_inv hb0
  obtain ⟨hn, hA, -⟩ := dimensionSlice_axes h3
  have hfit : Fittable Z.diff := by
    refine fittable_of_recorded hblock hrec (by rw [hb]) hnO (fun d hd x hx => eff_pos hx (hN d (pyStride_mem h1 hd))) ?_ hinc htime
    intro d hd l hl h2l
    obtain rfl := Except.ok.inj hl
    dsimp only at h2l ⊢
    rw [collMotion_length] at h2l
    rw [collMotion_eq hn, hA]
    exact varied_range (hmove d (pyStride_mem h1 hd) h2l)
  have hdim : Z.diff.dims ≠ 0 := by
    rw [hb]
    show b1.dims ≠ 0
    rw [hf]
    exact dims_pos h3
  have hdisp : Z.diff.displacements = ds := by
    rw [hb]
    show b1.displacements = ds
    rw [hf]
  cases ds with
  | nil => cases h4
  | cons d1 rest =>
    exact (C130_results L a Z.diff hL hfit ha hdim).2.1 d1 rest hdisp (hN d1 (pyStride_mem h1 List.mem_cons_self)).ne'

/-- **C130, from the analysis to the conductivity.** The displacement of the charge varies in every interval with two observations. -/
theorem C130_conductivity (L : GlsLib K) (C : Consts K) (hC : C.nA ≠ 0 ∧ C.R ≠ 0) (T V : K) (hT : T ≠ 0) (hV : V ≠ 0) (a : GlsArgs K)
    (hL : LibraryRuns L (parameters a.fitIntercept) a.nWalkers) (sq : K → K) (o : Oracle K G) (g g' : G) (U : UncParams K) (hblock : U.opt.block = false)
    (charge : Charge K) (base : PyM (Base K)) (Z : Analyzer K) (h : conductivityAnalyzer sq o g U charge base = .ok (Z, g'))
    (hnO : ∀ x ∈ Z.nO, 0 < x) (N : ℕ) (hN : 0 < N ∧ ∀ d ∈ Z.disp3d, d.n0 = N) (hq : ∀ l, charge = .array l → l.length = N)
    (hinc : Z.diff.dt.Pairwise (· < ·)) (htime : ∀ t ∈ Z.diff.dt, 0 < t)
    (hmove : ∀ d ∈ Z.disp3d, 2 ≤ d.n1 → ∃ k < d.n1, ∃ l < d.n1, sqSum Finset.univ charge.of d k ≠ sqSum Finset.univ charge.of d l)
    (ha : ValidFit a Z.diff.dt) : ∃ b', conductivity L C a T V Z.diff = (b', .ok ()) := by
  obtain ⟨B, -, rfl, hm⟩ := conductivity_inv h
  obtain ⟨b0, P, hb0, hP, hrec, hskip, b1, hf, hb⟩ := mscdBootstrap_inv hm
  obtain ⟨ds, dts, sel, d0, h1, h2, h3, h4, rfl⟩ := bootInit_inv hb0
  have hsubN : ∀ d ∈ ds, d.n0 = N := fun d hd => hN.2 d (pyStride_mem h1 hd)
  dsimp only at hP hskip hrec
  have hhead : (ds.map Arr3.n0).headD 0 = N := by
    cases ds with
    | nil => cases h4
    | cons d1 rest => exact hsubN d1 (by simp)
  rw [hhead] at hskip hrec
  have hlen : (charge.expand N).length = N := by
    cases charge with
    | scalar q => simp [Charge.expand]
    | array l => exact hq l rfl
  have hof : ∀ i < N, (charge.expand N).getD i 0 = charge.of i := by
    intro i hi
    cases charge with
    | scalar q => simp [Charge.expand, Charge.of, List.getD_eq_getElem?_getD, hi]
    | array l => rfl
  have hfit : Fittable Z.diff := by
    refine fittable_of_recorded hblock hrec (by rw [hb]) hnO (fun d hd x hx => eff_pos hx (by rw [hsubN d hd]; exact hN.1)) ?_ hinc htime
    intro d hd l hl h2l
    have e := chgMotion_eq (q := charge.expand N) (a := d) (by rw [hlen, hsubN d hd])
    rw [show (mscdQuantity (charge.expand N)).sample d = chgMotion (charge.expand N) d from rfl, e] at hl
    obtain rfl := Except.ok.inj hl
    rw [List.length_map, List.length_range] at h2l
    obtain ⟨k, hk, j, hj, hne⟩ := hmove d (pyStride_mem h1 hd) h2l
    have hs : ∀ k, sqSum Finset.univ (fun i => (charge.expand N).getD i 0) d k = sqSum Finset.univ charge.of d k := by
      intro k
      unfold sqSum
      apply Finset.sum_congr rfl
      intro x _
      congr 1
      apply Finset.sum_congr rfl
      intro i hi
      beta_reduce
      rw [hof i (by rw [← hsubN d hd]; exact Finset.mem_range.mp hi)]
    exact varied_range ⟨k, hk, j, hj, by rw [hs, hs]; exact hne⟩
  have hdim : Z.diff.dims ≠ 0 := by
    rw [hb]
    show b1.dims ≠ 0
    rw [hf]
    exact dims_pos h3
  exact (C130_results L a Z.diff hL hfit ha hdim).2.2 C T V hC.1 hC.2 hT hV

/-! ## What is needed -/

/-- **C130, two intervals are needed.** `linregress` raises without two points; then a fit of fewer than two intervals raises, whatever the data. -/
theorem C130_too_few (L : GlsLib K) (hreg : ∀ t y : List K, t.length < 2 → ∃ e, L.linregress t y = .error e) (a : GlsArgs K) (b : Boot K)
    (hs : b.dt.Pairwise (· < ·)) (h : (b.dt.filter fun t => decide (a.startDt ≤ t)).length < 2) :
    ∃ b' e, bootstrapGLS L a b = (b', .error e) := by
  cases hb : bootstrapGLS L a b with
  | mk b' o =>
  cases o with
  | error e => exact ⟨b', e, rfl⟩
  | ok u =>
  exfalso
  obtain ⟨-, -, -, -, r, m, cov, chain, g, b1, b2, hr, -, -, -, hc, -⟩ := bootstrapGLS_ok hb
  obtain ⟨hrl, hr1, hr2⟩ := diffRegime_ok_iff.mp hr
  have h1 : (b.dt.drop r).length < 2 := by
    have hall : (b.dt.drop r).filter (fun t => decide (a.startDt ≤ t)) = b.dt.drop r := by
      rw [List.filter_eq_self]
      intro x hx
      obtain ⟨j, hj, rfl⟩ := List.getElem_of_mem hx
      rw [List.getElem_drop]
      rw [decide_eq_true_eq]
      rw [List.length_drop] at hj
      rcases Nat.eq_zero_or_pos j with rfl | h0
      · exact hr1
      · exact hr1.trans (List.pairwise_iff_getElem.mp hs r (r + j) hrl (by omega) (by omega)).le
    have h2 : b.dt.filter (fun t => decide (a.startDt ≤ t)) = (b.dt.take r).filter (fun t => decide (a.startDt ≤ t)) ++ (b.dt.drop r) := by
      conv_lhs => rw [← List.take_append_drop r b.dt, List.filter_append, hall]
    rw [h2, List.length_append] at h
    omega
  obtain ⟨e, he⟩ := hreg (b.dt.drop r) (b.n.drop r) h1
  obtain ⟨logdet, inv, slope, ml, -, -, -, -, h5, -⟩ := sampleChain_ok hc
  rw [he] at h5
  cases h5

/-! ## Concrete cases -/

theorem symm_factors {m : ℕ} (A : Matrix (Fin m) (Fin m) ℝ) (h : A.transpose = A) :
    ∃ (ev : Fin m → ℝ) (V : Matrix (Fin m) (Fin m) ℝ), V * Matrix.diagonal ev * V.transpose = A := by
  have hA : A.IsHermitian := by rw [Matrix.IsHermitian, Matrix.conjTranspose_eq_transpose_of_trivial, h]
  refine ⟨hA.eigenvalues, (hA.eigenvectorUnitary : Matrix (Fin m) (Fin m) ℝ), ?_⟩
  have := hA.spectral_theorem
  rw [Unitary.conjStarAlgAut_apply] at this
  exact this.symm

open Classical in
/-- Library routines that do their work. -/
noncomputable def exRunLib : GlsLib ℝ where
  curveFit _ _ _ := .ok 1
  eig m A := if h : A.transpose = A then .ok ((symm_factors A h).choose, (symm_factors A h).choose_spec.choose) else .error .linAlgError
  covNearest _ _ := .ok 1
  slogdet _ _ := .ok 0
  pinvh _ A := .ok A⁻¹
  linregress t _ := if t.length < 2 then .error .valueError else .ok 1
  minimize _ x := .ok (x.map fun y => if y = 0 then 1 else y)
  randn w k := if w = k then 1 else 0
  emceeCheck nw nd pos := if 2 * nd ≤ nw then .ok () else .error .valueError
  propose _ _ := [1, 2]
  threshold _ _ := 0
  dist l := if l = [] then .error .indexError else .ok ()

theorem exRunLib_runs : LibraryRuns exRunLib 2 4 where
  curveFit _ _ _ _ _ _ _ _ _ := ⟨1, rfl, one_pos⟩
  eig m A h := by
    refine ⟨_, _, ?_, (symm_factors A h).choose_spec.choose_spec⟩
    show (if h : A.transpose = A then _ else _) = _
    rw [dif_pos h]
  covNearest m A _ _ := by
    refine ⟨1, rfl, ?_⟩
    intro x hx
    have h1 : ∑ i, ∑ j, x i * (1 : Matrix (Fin m) (Fin m) ℝ) i j * x j = ∑ i, x i * x i := by
      apply Finset.sum_congr rfl
      intro i _
      rw [Finset.sum_eq_single i]
      · simp
      · intro j _ hj
        simp [Matrix.one_apply_ne hj.symm]
      · simp
    rw [h1]
    obtain ⟨i, hi⟩ := Function.ne_iff.mp hx
    exact Finset.sum_pos' (fun i _ => mul_self_nonneg _) ⟨i, Finset.mem_univ _, mul_self_pos.mpr hi⟩
  slogdet _ _ _ := ⟨_, rfl⟩
  pinvh _ _ _ := ⟨_, rfl⟩
  linregress t y _ h _ := ⟨1, by show (if t.length < 2 then _ else _) = _; rw [if_neg (by omega)]⟩
  minimize f x0 h _ := by
    refine ⟨_, rfl, by simpa using h, ?_⟩
    intro y hy
    obtain ⟨z, -, rfl⟩ := List.mem_map.mp hy
    split_ifs with hz
    · exact one_ne_zero
    · exact hz
  randn := by
    intro c0 c h
    have h2 := h [0, 0] (by
      refine List.mem_map.mpr ⟨2, by simp, ?_⟩
      simp [exRunLib, List.range_succ])
    have h0 := h [1, 0] (by
      refine List.mem_map.mpr ⟨0, by simp, ?_⟩
      simp [exRunLib, List.range_succ])
    have h1 := h [0, 1] (by
      refine List.mem_map.mpr ⟨1, by simp, ?_⟩
      simp [exRunLib, List.range_succ])
    simp [Fin.sum_univ_two] at h0 h1 h2
    funext k
    match k with
    | 0 => simp; linarith
    | 1 => simp; linarith
  emceeCheck pos _ _ h _ := by
    simp [exRunLib]
  propose _ _ := rfl
  dist l h := by
    show (if l = [] then _ else _) = _
    rw [if_neg h]

/-- The default number of parameters with four walkers. -/
noncomputable def exRunArgs : GlsArgs ℝ := { startDt := 2, condMax := 100, nSamples := 20, nWalkers := 4 }

/-- Displacements of one atom: three intervals with four, three and two observations. -/
noncomputable def exRunBase : Base ℝ := ⟨[1, 2, 3], [exArr ℝ 4, exArr ℝ 3, exArr ℝ 2], [6, 3, 2], none⟩

theorem exRun_estimate : ∃ Z, diffusionAnalyzer Real.sqrt (exOracle ℝ) () { opt := exOpts ℝ } (.ok exRunBase) = .ok (Z, ()) ∧ Z.diff.dt = [1, 2, 3] := by
  have hb : ∃ b, msdBootstrap Real.sqrt (exOracle ℝ) (exOpts ℝ) () exRunBase.deltaT exRunBase.disp3d exRunBase.nO 1 "xyz" = .ok (b, ()) := by
    apply msdBootstrap_ok _ _ _ rfl rfl _ _ _ _ _ (by decide +kernel) (by simp [exRunBase]) 3
    · intro i a h
      match i with
      | 0 => simp [exRunBase] at h; subst h; simp [exArr]
      | 1 => simp [exRunBase] at h; subst h; simp [exArr]
      | 2 => simp [exRunBase] at h; subst h; simp [exArr]
      | n + 3 => simp [exRunBase] at h
    · simp [exRunBase]
    · simp [exRunBase]
  obtain ⟨b, hb⟩ := hb
  refine ⟨⟨exRunBase, b⟩, ?_, ?_⟩
  · unfold diffusionAnalyzer
    simp only [bind, Except.bind]
    rw [hb]
  · obtain ⟨ds, dts, h1, h2, h3, h4, h5⟩ := C28_msd _ _ _ rfl _ _ _ _ _ _ _ _ hb
    rw [pyStride_one] at h1 h2
    obtain rfl := Except.ok.inj h1
    obtain rfl := Except.ok.inj h2
    have h6 : 3 ≤ b.n.length := by
      by_contra hlt
      have h7 : b.n.length = 0 ∨ b.n.length = 1 ∨ b.n.length = 2 := by omega
      rcases h7 with h7 | h7 | h7
      · have := h5 0 (by omega) (exArr ℝ 4) rfl; simp [exArr] at this
      · have := h5 1 (by omega) (exArr ℝ 3) rfl; simp [exArr] at this
      · have := h5 2 (by omega) (exArr ℝ 2) rfl; simp [exArr] at this
    have h8 : b.n.length ≤ 3 := by
      by_contra hlt
      obtain ⟨a, e, -⟩ := h4 3 (by omega)
      simp [exRunBase] at e
    apply List.ext_getElem?
    intro i
    by_cases hi : i < 3
    · obtain ⟨a, -, -, -, e⟩ := h4 i (by omega)
      exact e
    · rw [List.getElem?_eq_none (by show b.dt.length ≤ i; omega), List.getElem?_eq_none (by simp; omega)]

/-- `C130_diffusion` applies: an analysis and its fit. -/
example : ∃ Z b', diffusionAnalyzer Real.sqrt (exOracle ℝ) () { opt := exOpts ℝ } (.ok exRunBase) = .ok (Z, ()) ∧
    diffusion exRunLib exRunArgs Z.diff = (b', .ok ()) := by
  obtain ⟨Z, hZ, hdt⟩ := exRun_estimate
  obtain ⟨B, hB, hZB, -⟩ := diffusion_inv hZ
  obtain rfl := Except.ok.inj hB
  obtain ⟨b', hb'⟩ := C130_diffusion exRunLib exRunArgs exRunLib_runs Real.sqrt (exOracle ℝ) () () { opt := exOpts ℝ } rfl (.ok exRunBase) Z hZ
    (by rw [hZB]; intro x hx; simp [exRunBase] at hx; rcases hx with rfl | rfl | rfl <;> norm_num)
    (by rw [hdt]; norm_num)
    (by rw [hdt]; intro t ht; simp at ht; rcases ht with rfl | rfl | rfl <;> norm_num)
    (by
      rw [hZB]
      intro d hd _
      have hax : axesOf "xyz" = Finset.univ := by decide +kernel
      have : ∃ n, 2 ≤ n ∧ d = exArr ℝ n := by
        simp [exRunBase] at hd
        rcases hd with rfl | rfl | rfl
        · exact ⟨4, by norm_num, rfl⟩
        · exact ⟨3, by norm_num, rfl⟩
        · exact ⟨2, by norm_num, rfl⟩
      obtain ⟨n, hn, rfl⟩ := this
      refine ⟨(0, 0), by simp [pairs, exArr]; omega, (0, 1), by simp [pairs, exArr]; omega, ?_⟩
      rw [hax]
      simp [sqLen, exArr, Fin.sum_univ_three]
      norm_num)
    (by
      rw [hdt]
      refine ⟨?_, ?_, ?_, ?_, ?_⟩
      · simp [exRunArgs, List.filter_cons]; norm_num
      · simp [exRunArgs]
      · decide +kernel
      · decide +kernel
      · decide +kernel)
  exact ⟨Z, b', hZ, hb'⟩

/-- A finished estimate. -/
noncomputable def exRunBoot : Boot ℝ where
  displacements := [exArr ℝ 4, exArr ℝ 3, exArr ℝ 2]
  deltaT := [1, 2, 3]
  maxObs := 4
  dt := [1, 2, 3]
  n := [2, 5, 6]
  v := [some 1, some 2, some 3]
  nO := [6, 3, 2]
  subSampleDt := 1
  dimension := "xyz"
  axes := [0, 1, 2]
  dims := 3

/-- `C130_fit` and `C130_results` apply. -/
example : Fittable exRunBoot ∧ ValidFit exRunArgs exRunBoot.dt ∧ (∃ b', jumpDiffusion exRunLib exRunArgs exRunBoot = (b', .ok ())) ∧
    ∃ b', conductivity exRunLib ⟨6, 1, 8⟩ exRunArgs 300 1000 exRunBoot = (b', .ok ()) := by
  have h1 : Fittable exRunBoot := by
    constructor
    · rfl
    · rfl
    · rfl
    · norm_num [exRunBoot]
    · intro t ht; simp [exRunBoot] at ht; rcases ht with rfl | rfl | rfl <;> norm_num
    · intro t ht; simp [exRunBoot] at ht; rcases ht with rfl | rfl | rfl <;> norm_num
    · intro t ht; simp [exRunBoot] at ht; rcases ht with rfl | rfl | rfl <;> norm_num
  have h2 : ValidFit exRunArgs exRunBoot.dt := by
    refine ⟨?_, ?_, ?_, ?_, ?_⟩
    · simp [exRunArgs, exRunBoot, List.filter_cons]; norm_num
    · simp [exRunArgs]
    · decide +kernel
    · decide +kernel
    · decide +kernel
  obtain ⟨-, h3, h4⟩ := C130_results exRunLib exRunArgs exRunBoot exRunLib_runs h1 h2 (by simp [exRunBoot])
  exact ⟨h1, h2, h3 _ _ rfl (by simp [exArr]), h4 ⟨6, 1, 8⟩ 300 1000 (by norm_num) (by norm_num) (by norm_num) (by norm_num)⟩

/-- `C130_too_few` applies: only one interval lies in the diffusive regime. -/
example : ∃ b' e, bootstrapGLS exRunLib { exRunArgs with startDt := 3 } exRunBoot = (b', .error e) := by
  refine C130_too_few exRunLib (fun t y h => ⟨.valueError, ?_⟩) _ _ (by norm_num [exRunBoot]) ?_
  · show (if t.length < 2 then _ else _) = _
    rw [if_pos h]
  · simp [exRunBoot, List.filter_cons]
    norm_num

end Kinisi
