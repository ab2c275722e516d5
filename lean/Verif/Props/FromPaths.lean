import Verif.Props.Conditioning
import Verif.Props.Collective
import Verif.Props.Fit
import Verif.Spec.FromPaths

/-!
# C154: from the paths of the atoms to the coefficient

The steps of the other claims in one statement: the samples of the coefficient come from a chain that starts at a value given by the true paths.
-/

set_option linter.unusedSectionVars false
set_option linter.unusedVariables false

namespace Kinisi
open Spec
variable {K : Type} [Field K] [LinearOrder K] [IsStrictOrderedRing K] [FloorRing K] {G : Type}

/-- In an ascending list the part from the first element that reaches `s` is the list of all elements that do. -/
theorem filter_from {f : ℕ → K} {l : List ℕ} {s : K} (hs : (l.map f).Pairwise (· < ·)) {r : ℕ} {t₀ : K} (hr : (l.map f)[r]? = some t₀) (h0 : s ≤ t₀)
    (hlow : ∀ (k : ℕ) (t : K), k < r → (l.map f)[k]? = some t → t < s) : l.filter (fun τ => decide (s ≤ f τ)) = l.drop r := by
  have hlen : r < l.length := by have := (List.getElem?_eq_some_iff.1 hr).1; simpa using this
  conv_lhs => rw [← List.take_append_drop r l]
  rw [List.filter_append, List.filter_eq_nil_iff.2, List.filter_eq_self.2, List.nil_append]
  · intro τ hτ
    obtain ⟨j, hj, rfl⟩ := List.mem_iff_getElem.1 hτ
    rw [List.getElem_drop]
    rw [List.length_drop] at hj
    rw [decide_eq_true_eq]
    obtain ⟨hr1, e⟩ := List.getElem?_eq_some_iff.1 hr
    rw [List.getElem_map] at e
    rcases Nat.eq_zero_or_pos j with rfl | hj0
    · simpa [e] using h0
    · have := List.pairwise_iff_getElem.1 hs r (r + j) (by simpa using hlen) (by simp; omega) (by omega)
      rw [List.getElem_map, List.getElem_map, e] at this
      exact h0.trans this.le
  · intro τ hτ
    obtain ⟨j, hj, rfl⟩ := List.mem_iff_getElem.1 hτ
    rw [List.length_take] at hj
    rw [List.getElem_take, decide_eq_true_eq, not_le]
    exact hlow j _ (by omega) (by rw [List.getElem?_map, List.getElem?_eq_getElem (by omega)]; rfl)

/-- The walkers of a fit start close to the gradient `g` (and an intercept), the line of highest likelihood; `chain` is the chain of the sampler. -/
def ChainFrom (L : GlsLib K) (a : GlsArgs K) (g : K) (chain : List (List K)) : Prop :=
  ∃ (ll : List K → Option K) (c best : K), (if a.fitIntercept then BestLine ll g c best else BestRay ll g best) ∧
    getChain a.nBurn a.thin (runChain L ll (a.nSamples + a.nBurn) 0 ((List.range a.nWalkers).map fun w =>
      (g + g * (1 / 1000) * L.randn w 0) :: if a.fitIntercept then [c + c * (1 / 1000) * L.randn w 1] else [])) = .ok chain

/-- What the claim assumes of the libraries: the optimiser finds the maximum, matrices are diagonalised and inverted, a matrix that is positive definite already is left alone, proposals have as many parameters as the fit. -/
structure Dependable (L : GlsLib K) (a : GlsArgs K) : Prop where
  minimize : FindsMaximum L.minimize
  pinvh : ∀ m A P, PD A → L.pinvh m A = .ok P → A * P = 1
  eig : Diagonalises L
  covNearest : KeepsCovariance L
  propose : ∀ s w, (L.propose s w).length = parameters a.fitIntercept

/-- The chain of a fit of a curve over the intervals `l`. -/
theorem chain_from {L : GlsLib K} {a : GlsArgs K} {b b' : Boot K} (h : bootstrapGLS L a b = (b', .ok ())) (hm : a.model = true) (hcov : b'.covariance = b'.npdCovariance) (hL : Dependable L a)
    (α : K) (hα : b'.popt = some α) (hα0 : 0 < α) (hb : InverseCounts b ∧ Aligned b) {f M : ℕ → K} {l : List ℕ} (hn : b.n = l.map M) (hdt : b.dt = l.map f)
    (hM : ∀ τ ∈ l, 0 ≤ M τ) (k : List ℕ) (hk : k = l.filter fun τ => decide (a.startDt ≤ f τ)) (h2 : a.fitIntercept = true → 2 ≤ k.length) :
    ∃ chain, b'.flatchain = some chain ∧ b'.gradient = some (chain.map fun θ => θ.getD 0 0) ∧ ChainFrom L a (walkGradient a.fitIntercept (k.map f) (k.map M)) chain := by
  have hg : ∀ chain, b'.flatchain = some chain → b'.gradient = some (chain.map fun θ => θ.getD 0 0) := by
    intro chain hc
    obtain ⟨-, -, -, -, r, m, cov, chain', g, b1, b2, -, -, -, -, -, e1, e2, e3, -⟩ := bootstrapGLS_ok h
    rw [hc] at e1
    obtain rfl := Option.some.inj e1
    obtain ⟨e4, e5⟩ := mapM_pyGet e2
    rw [e3, Option.some.injEq]
    refine List.ext_getElem (by simpa using e4) fun i h1 h2 => ?_
    rw [List.length_map] at h2
    rw [List.getElem_map, List.getD_eq_getElem?_getD, e5 i h2 h1, Option.getD_some]
  obtain ⟨⟨⟨κ, hκ⟩, hpos, hcnt⟩, l1, l2, l3⟩ := id hb
  have hgen : ∀ {r : ℕ} {t₀ : K}, b.dt[r]? = some t₀ → a.startDt ≤ t₀ → (∀ (k : ℕ) (t : K), k < r → b.dt[k]? = some t → t < a.startDt) → k = l.drop r := by
    intro r t₀ e1 e2 e3
    rw [hdt] at e1 e3 l3
    rw [hk]
    exact filter_from l3 e1 e2 e3
  cases hi : a.fitIntercept with
  | true =>
    obtain ⟨r, m, P, t₀, ld, g, c, best, chain, c1, c2, c3, c4, c5, c6, c7, c8⟩ := C149_model h hi hm hcov hL.minimize hL.pinvh α hα hα0 hb
    have hkr := hgen c1 c2 c3
    refine ⟨chain, c6, hg chain c6, ?_⟩
    have hkl : k.length = b.n.length - r := by rw [hkr, hn, List.length_drop, List.length_map]
    have h3 := h2 hi
    have e := c8 (k.length - 1) (by omega) (by omega)
    have ht : timesFrom b r = fun i => (k.map f).getD i 0 := by
      funext i
      simp only [timesFrom, hdt, hkr, List.getD_eq_getElem?_getD, List.map_drop, List.getElem?_drop]
    have hy : valuesFrom b r = fun i => (k.map M).getD i 0 := by
      funext i
      simp only [valuesFrom, hn, hkr, List.getD_eq_getElem?_getD, List.map_drop, List.getElem?_drop]
    rw [ht, hy] at e
    have hw : walkGradient true (k.map f) (k.map M) = g := by
      rw [e]
      simp only [walkGradient, if_true, List.length_map]
    rw [hw]
    refine ⟨fitLL b r ld P, c, best, by rw [hi]; exact c5, by rw [hi]; exact c7⟩
  | false =>
    obtain ⟨r, -, -, p1, -, -, -⟩ := bootstrapGLS_model h hm
    obtain ⟨q1, q2, q3⟩ := diffRegime_ok_iff.1 p1
    have hr : b.dt[r]? = some b.dt[r] := List.getElem?_eq_getElem q1
    have hf : ∀ (k : ℕ) (t : K), k < r → b.dt[k]? = some t → t < a.startDt := by
      intro k t hk e
      obtain ⟨e1, rfl⟩ := List.getElem?_eq_some_iff.1 e
      exact q3 k hk
    have hkr := hgen hr q2 hf
    have ql : r < l.length := by rw [hdt, List.length_map] at q1; exact q1
    have qn : b.n[r]? = some (M l[r]) := by rw [hn, List.getElem?_map, List.getElem?_eq_getElem ql]; rfl
    have qo : r < b.nO.length := by omega
    have h0 := hM _ (List.getElem_mem ql)
    have ht0 := hpos _ (List.getElem_mem q1)
    obtain ⟨chain, d1, d2⟩ := C134_model h hi hm hcov hL.minimize hL.pinvh (by intro s w; rw [hL.propose s w, hi]; rfl) α hα hα0 (by omega) l3 κ
      (fun k t N e1 e2 => ⟨hcnt N (List.mem_of_getElem? e2), hκ k t N e1 e2⟩) r _ _ _ hr q2 hf qn (List.getElem?_eq_getElem qo) ht0 h0
    refine ⟨chain, d2, hg chain d2, ?_⟩
    have hw : walkGradient false (k.map f) (k.map M) = M l[r] / b.dt[r] := by
      simp only [walkGradient, Bool.false_eq_true, if_false, hkr, List.getD_eq_getElem?_getD, List.map_drop, List.getElem?_drop, Nat.add_zero, ← hdt, ← hn, qn, hr, Option.getD_some]
    rw [hw]
    refine ⟨onePoint b.dt[r] (M l[r]) (α / b.nO[r] * b.dt[r] ^ 2), 0, 0, ?_, by rw [hi]; exact d1⟩
    · rw [hi]
      have hv : 0 < α / b.nO[r] * b.dt[r] ^ 2 := mul_pos (div_pos hα0 (hcnt _ (List.getElem_mem qo))) (pow_pos ht0 2)
      refine ⟨?_, fun g' v hv' => ?_⟩
      · simp only [onePoint, List.getD_cons_zero]
        rw [if_neg (not_lt.2 (div_nonneg h0 ht0.le)), div_mul_cancel₀ _ ht0.ne']
        simp
      · simp only [onePoint, List.getD_cons_zero] at hv'
        split at hv'
        · cases hv'
        · rw [← Option.some.inj hv', neg_nonpos]
          positivity

/-- Number of dimensions of an analysis. -/
theorem run_dims {sq : K → K} {o : Oracle K G} {U : UncParams K} {charge : Charge K} {g₁ g₂ : G} {base : PyM (Base K)} {Z : Analyzer K}
    (h : diffusionAnalyzer sq o g₁ U base = .ok (Z, g₂) ∨ jumpAnalyzer sq o g₁ U base = .ok (Z, g₂) ∨ conductivityAnalyzer sq o g₁ U charge base = .ok (Z, g₂)) :
    Z.diff.dims = (axesOf U.dimension).card ∧ ∃ B, base = .ok B ∧ ∀ d ∈ Z.diff.displacements, d ∈ B.disp3d := by
  have key : ∀ {B : Base K} {b0 b1 b : Boot K} {p : List K}, bootInit B.deltaT B.disp3d B.nO U.sub U.dimension = .ok b0 → SameFixed b0 b1 → b = { b1 with nO := p } →
      b.dims = (axesOf U.dimension).card ∧ ∀ d ∈ b.displacements, d ∈ B.disp3d := by
    intro B b0 b1 b p i1 i4 i3
    obtain ⟨ds, dts, sel, d0, u1, -, j3, -, rfl⟩ := bootInit_inv i1
    obtain ⟨k1, k2, k3⟩ := dimensionSlice_axes j3
    rw [i3]
    refine ⟨?_, fun d hd => ?_⟩
    · show b1.dims = _
      rw [show b1.dims = dimensionDims U.dimension from congrArg Boot.dims i4, ← k2, List.toFinset_card_of_nodup k1, k3]
    · have hds : b1.displacements = ds := i4.displacements
      exact pyStride_mem u1 (hds ▸ hd)
  rcases h with h | h | h
  · obtain ⟨B, hB, -, m⟩ := diffusion_inv h
    obtain ⟨b0, q, i1, -, -, -, b1, i4, i3⟩ := msdBootstrap_inv m
    obtain ⟨k1, k2⟩ := key i1 i4 i3
    exact ⟨k1, B, hB, k2⟩
  · obtain ⟨B, hB, -, m⟩ := jump_inv h
    obtain ⟨b0, q, i1, -, -, -, b1, i4, i3⟩ := mstdBootstrap_inv m
    obtain ⟨k1, k2⟩ := key i1 i4 i3
    exact ⟨k1, B, hB, k2⟩
  · obtain ⟨B, hB, -, m⟩ := conductivity_inv h
    obtain ⟨b0, q, i1, -, -, -, b1, i4, i3⟩ := mscdBootstrap_inv m
    obtain ⟨k1, k2⟩ := key i1 i4 i3
    exact ⟨k1, B, hB, k2⟩

theorem reportedMsd_nonneg (A : Finset (Fin 3)) (L : M3 K) (u : ℕ → ℕ → V3 K) (fw atoms : List ℕ) (F τ : ℕ) : 0 ≤ reportedMsd A L u fw atoms F τ := by
  unfold reportedMsd
  refine div_nonneg (List.sum_nonneg fun v hv => ?_) (by positivity)
  obtain ⟨i, -, rfl⟩ := List.mem_map.1 hv
  unfold lengthSq
  positivity

/-- **C154, diffusion.** A trajectory of `F < 10000` frames with the true paths `x`, stored in cells that may change, read with the default intervals by any of the three frame parsers; `u` is the time between frames (ps).  `diffusion` with the random
walk model and `cond_max` of at least `1e16`, with numerical libraries that do what they promise.  Let `k` be the intervals from `start_dt` on, with and without intercept.  The samples of the diffusion coefficient are the gradients of a chain, over twice the number
of dimensions, in cm²/s; its walkers start close to a line of highest likelihood, whose gradient is `walkGradient` of the mean squared displacements of the true paths. -/
theorem C154_diffusion (E : Num K) (P : Params K) (S : Select K) (sy : List String) (atoms fw : List ℕ) (hS : Picks S sy atoms fw) (hP : DefaultGrid E P) (F : ℕ) (hF : 2 ≤ F) (hF' : F < 10000) (C : ℕ → M3 K) (V : ℕ → K)
    (s x : ℕ → ℕ → V3 K) (hs : StoredIn F sy.length C s x) (base : PyM (Base K)) (unit : K) (hbase : ReadFrames E P S (cellFrames F sy C V s) (cellUniverse F sy C V s) base unit) (sq : K → K) (o : Oracle K G)
    (U : UncParams K) (hblock : U.opt.block = false) (hsub : U.sub = 1) (g₁ g₂ : G) (Z : Analyzer K) (h : diffusionAnalyzer sq o g₁ U base = .ok (Z, g₂)) (L : GlsLib K) (a : GlsArgs K) (hL : Dependable L a) (b' : Boot K)
    (hg : diffusion L a Z.diff = (b', .ok ())) (hm : a.model = true) (hcm : 10 ^ 16 ≤ a.condMax) (α : K) (hα : b'.popt = some α) (hα0 : 0 < α) :
    ∃ taus k : List ℕ, taus.Pairwise (· < ·) ∧ (∀ τ ∈ taus, 1 ≤ τ ∧ τ ≤ F) ∧ ((F : ℤ) ≤ P.nSteps → taus = (List.range F).map fun i => i + 1) ∧
      k = (resolved atoms.length F taus).filter (fun τ : ℕ => decide (a.startDt ≤ (τ : K) * P.stepSkip.val * P.timeStep.val / unit)) ∧
      ((a.fitIntercept = true → 2 ≤ k.length) → ∃ chain, b'.diffusionCoefficient = some (chain.map fun θ => θ.getD 0 0 / (2 * ((axesOf U.dimension).card : K)) * angstromSqPerPs) ∧
        ChainFrom L a (walkGradient a.fitIntercept (k.map fun τ : ℕ => (τ : K) * P.stepSkip.val * P.timeStep.val / unit) (k.map (reportedMsd (axesOf U.dimension) unitCell x fw atoms F))) chain) := by
  obtain ⟨taus, t1, t2, t3, -, t4, t5⟩ := C101_msd E P S sy atoms fw hS hP F hF C V s x hs sq o U hblock hsub g₁ g₂ Z base unit hbase h
  obtain ⟨hd, -⟩ := run_dims (charge := .scalar 1) (.inl h)
  obtain ⟨gr, d, e1, e2, e3⟩ := C48_diffusion.1 hg
  obtain ⟨b1, gr', f1, f2, rfl⟩ := diffusion_ok hg
  obtain ⟨hcov, -⟩ := C152_runs E P S sy atoms fw hS hP F hF hF' C V s x hs base unit hbase sq o U hsub (.scalar 1) g₁ g₂ Z (.inl h) L a b1 f1 hm hL.eig hL.covNearest hcm α hα hα0
  obtain ⟨hal, -⟩ := run_grid_range hS hP hF hs hbase hsub (charge := .scalar 1) (.inl h)
  refine ⟨taus, _, t1, t2, t3, rfl, fun h2 => ?_⟩
  obtain ⟨chain, c1, c2, c3⟩ := chain_from f1 hm hcov hL α hα hα0 hal t4 t5 (fun τ _ => reportedMsd_nonneg _ _ _ _ _ _ _) _ rfl h2
  refine ⟨chain, ?_, c3⟩
  rw [e2, e3, hd]
  have : gr = chain.map fun θ => θ.getD 0 0 := Option.some.inj (e1.symm.trans c2)
  rw [this, List.map_map]
  rfl

/-- **C154, jump diffusion.** The same for `jump_diffusion` and the total displacement of the atoms, over the number of atoms; only the first half of the intervals is used. -/
theorem C154_jump (E : Num K) (P : Params K) (S : Select K) (sy : List String) (atoms fw : List ℕ) (hS : Picks S sy atoms fw) (hP : DefaultGrid E P) (F : ℕ) (hF : 2 ≤ F) (hF' : F < 10000) (C : ℕ → M3 K) (V : ℕ → K)
    (s x : ℕ → ℕ → V3 K) (hs : StoredIn F sy.length C s x) (base : PyM (Base K)) (unit : K) (hbase : ReadFrames E P S (cellFrames F sy C V s) (cellUniverse F sy C V s) base unit) (sq : K → K) (o : Oracle K G)
    (U : UncParams K) (hblock : U.opt.block = false) (hsub : U.sub = 1) (g₁ g₂ : G) (Z : Analyzer K) (h : jumpAnalyzer sq o g₁ U base = .ok (Z, g₂)) (L : GlsLib K) (a : GlsArgs K) (hL : Dependable L a) (b' : Boot K)
    (hg : jumpDiffusion L a Z.diff = (b', .ok ())) (hm : a.model = true) (hcm : 10 ^ 16 ≤ a.condMax) (α : K) (hα : b'.popt = some α) (hα0 : 0 < α) :
    ∃ taus k : List ℕ, taus.Pairwise (· < ·) ∧ (∀ τ ∈ taus, 1 ≤ τ ∧ τ ≤ F) ∧ ((F : ℤ) ≤ P.nSteps → taus = (List.range F).map fun i => i + 1) ∧
      k = ((resolved atoms.length F taus).take ((resolved atoms.length F taus).length / 2)).filter (fun τ : ℕ => decide (a.startDt ≤ (τ : K) * P.stepSkip.val * P.timeStep.val / unit)) ∧
      ((a.fitIntercept = true → 2 ≤ k.length) →
        ∃ chain, b'.jumpDiffusionCoefficient = some (chain.map fun θ => θ.getD 0 0 / (2 * ((axesOf U.dimension).card : K)) * angstromSqPerPs / (atoms.length : K)) ∧
        ChainFrom L a (walkGradient a.fitIntercept (k.map fun τ : ℕ => (τ : K) * P.stepSkip.val * P.timeStep.val / unit) (k.map (reportedTotal (axesOf U.dimension) unitCell x fw atoms (fun _ => 1) F))) chain) := by
  obtain ⟨taus, half, t1, t2, t3, -, rfl, t4, t5⟩ := C101_mstd E P S sy atoms fw hS hP F hF C V s x hs sq o U hblock hsub g₁ g₂ Z base unit hbase h
  obtain ⟨hd, B, hB, hmem⟩ := run_dims (charge := .scalar 1) (.inr (.inl h))
  obtain ⟨gr, d, d0, rest, e1, e2, e4, e3⟩ := C48_diffusion.2 hg
  have hN : d0.n0 = atoms.length := by
    obtain ⟨f0, rest', hw, hlen, hv, hf⟩ := cell_follows (E := E) (V := V) hS hF hs
    rw [hw] at hbase
    obtain ⟨taus', ht⟩ := frames_base hP hF hlen hf (fun fr h => (cellUniverse_frames h).trans hw) hbase hB
    obtain ⟨i, hi, e⟩ := List.mem_iff_getElem.mp (hmem d0 (e4 ▸ List.mem_cons_self))
    have hl := ht.windows.length_eq
    rw [← e]
    exact ((List.forall₂_iff_get.mp ht.windows).2 i (by omega) hi).1
  obtain ⟨b1, gr', d1, rest1, f1, f2, -, rfl⟩ := jumpDiffusion_ok hg
  obtain ⟨hcov, -⟩ := C152_runs E P S sy atoms fw hS hP F hF hF' C V s x hs base unit hbase sq o U hsub (.scalar 1) g₁ g₂ Z (.inr (.inl h)) L a b1 f1 hm hL.eig hL.covNearest hcm α hα hα0
  obtain ⟨hal, -⟩ := run_grid_range hS hP hF hs hbase hsub (charge := .scalar 1) (.inr (.inl h))
  refine ⟨taus, _, t1, t2, t3, rfl, fun h2 => ?_⟩
  obtain ⟨chain, c1, c2, c3⟩ := chain_from f1 hm hcov hL α hα hα0 hal t4 t5 (fun τ _ => reportedTotal_nonneg _ _ _ _ _ _ _ _) _ rfl h2
  refine ⟨chain, ?_, c3⟩
  rw [e2, e3, hd, hN]
  have : gr = chain.map fun θ => θ.getD 0 0 := Option.some.inj (e1.symm.trans c2)
  rw [this, List.map_map]
  rfl

/-- **C154, conductivity.** The same for `conductivity` at the temperature `T` with the volume of the first frame and the charge displacement, along all three axes whatever `dimension` says. -/
theorem C154_conductivity (E : Num K) (P : Params K) (S : Select K) (sy : List String) (atoms fw : List ℕ) (hS : Picks S sy atoms fw) (hP : DefaultGrid E P) (F : ℕ) (hF : 2 ≤ F) (hF' : F < 10000) (C : ℕ → M3 K) (V : ℕ → K)
    (s x : ℕ → ℕ → V3 K) (hs : StoredIn F sy.length C s x) (base : PyM (Base K)) (unit : K) (hbase : ReadFrames E P S (cellFrames F sy C V s) (cellUniverse F sy C V s) base unit) (sq : K → K) (o : Oracle K G)
    (U : UncParams K) (hblock : U.opt.block = false) (hsub : U.sub = 1) (charge : Charge K) (hq : ∀ l, charge = .array l → l.length = atoms.length) (g₁ g₂ : G) (Z : Analyzer K)
    (h : conductivityAnalyzer sq o g₁ U charge base = .ok (Z, g₂)) (L : GlsLib K) (a : GlsArgs K) (hL : Dependable L a) (b' : Boot K) (Q : Consts K) (hA : 0 < Q.nA) (T vol : K) (hvol : Z.volume = some vol)
    (hg : conductivity L Q a T vol Z.diff = (b', .ok ())) (hm : a.model = true) (hcm : 10 ^ 16 ≤ a.condMax) (α : K) (hα : b'.popt = some α) (hα0 : 0 < α) :
    ∃ taus k : List ℕ, taus.Pairwise (· < ·) ∧ (∀ τ ∈ taus, 1 ≤ τ ∧ τ ≤ F) ∧ ((F : ℤ) ≤ P.nSteps → taus = (List.range F).map fun i => i + 1) ∧
      k = ((resolved atoms.length F taus).take ((resolved atoms.length F taus).length / 2)).filter (fun τ : ℕ => decide (a.startDt ≤ (τ : K) * P.stepSkip.val * P.timeStep.val / unit)) ∧
      ((a.fitIntercept = true → 2 ≤ k.length) →
        ∃ chain, b'.sigma = some (chain.map fun θ => 1000 * (Q.e ^ 2 * (θ.getD 0 0 / (2 * ((axesOf U.dimension).card : K)) * angstromSqPerPs) / (V 0 * angstromCubed * (Q.R / Q.nA) * T))) ∧
        ChainFrom L a (walkGradient a.fitIntercept (k.map fun τ : ℕ => (τ : K) * P.stepSkip.val * P.timeStep.val / unit) (k.map (reportedTotal Finset.univ unitCell x fw atoms charge.of F))) chain) := by
  obtain ⟨taus, half, t1, t2, t3, t6, rfl, t4, t5⟩ := C101_mscd E P S sy atoms fw hS hP F hF C V s x hs sq o U hblock hsub g₁ g₂ Z base unit hbase charge hq h
  obtain rfl : V 0 = vol := Option.some.inj (t6.symm.trans hvol)
  obtain ⟨hd, -⟩ := run_dims (.inr (.inr h))
  obtain ⟨gr, d, e1, e2, e3⟩ := C48_conductivity hA hg
  obtain ⟨b1, gr', cv, f1, f2, -, rfl⟩ := conductivity_ok hg
  obtain ⟨hcov, -⟩ := C152_runs E P S sy atoms fw hS hP F hF hF' C V s x hs base unit hbase sq o U hsub charge g₁ g₂ Z (.inr (.inr h)) L a b1 f1 hm hL.eig hL.covNearest hcm α hα hα0
  obtain ⟨hal, -⟩ := run_grid_range hS hP hF hs hbase hsub (.inr (.inr h))
  refine ⟨taus, _, t1, t2, t3, rfl, fun h2 => ?_⟩
  obtain ⟨chain, c1, c2, c3⟩ := chain_from f1 hm hcov hL α hα hα0 hal t4 t5 (fun τ _ => reportedTotal_nonneg _ _ _ _ _ _ _ _) _ rfl h2
  refine ⟨chain, ?_, c3⟩
  rw [e2, e3, hd]
  have : gr = chain.map fun θ => θ.getD 0 0 := Option.some.inj (e1.symm.trans c2)
  rw [this, List.map_map]
  rfl

/-! ## Examples -/

/-- The MSD 1/2, 7/4, 5/2 at the times 6, 12, 18: gradient 23/120 with intercept (the example of C147), 1/12 without.  The MSD 2, 1 gets the gradient 0 with intercept. -/
example : walkGradient true [6, 12, 18] [(1 / 2 : ℚ), 7 / 4, 5 / 2] = 23 / 120 ∧ walkGradient false [6, 12, 18] [(1 / 2 : ℚ), 7 / 4, 5 / 2] = 1 / 12 ∧ walkGradient true [6, 12] [(2 : ℚ), 1] = 0 := by decide +kernel

/-- Routines for the last interval alone, with a positive matrix only. -/
def exPathLib (q : ℚ) : GlsLib ℚ := { exLastLib with
  pinvh := fun m A => match m, A with
    | 1, A => if 0 < A 0 0 then .ok fun _ _ => 1 / A 0 0 else .error .linAlgError
    | _, _ => .error .linAlgError
  minimize := fun _ _ => .ok [q] }

noncomputable def exPathLib' (q : ℚ) : GlsLib ℚ := { exPathLib q with minimize := exRayMinimize q }

theorem exPathLib_dependable (q : ℚ) : Dependable (exPathLib' q) { exArgs 20 false with model := true, condMax := 10 ^ 16 } where
  minimize := exRayMinimize_finds q
  pinvh := by
    intro m A P hA h
    match m, A, P, h with
    | 0, A, P, h => cases h
    | 1, A, P, h =>
      simp only [exPathLib', exPathLib] at h
      split_ifs at h with h0
      rw [← Except.ok.inj h]
      funext i j
      obtain rfl : i = 0 := Fin.ext (by have := i.2; simp only [Fin.val_zero]; omega)
      obtain rfl : j = 0 := Fin.ext (by have := j.2; simp only [Fin.val_zero]; omega)
      show ∑ x : Fin 1, A 0 x * (1 / A 0 0) = 1
      rw [Fin.sum_univ_one]
      exact mul_one_div_cancel h0.ne'
    | m + 2, A, P, h => cases h
  eig := exLastLib_eig
  covNearest := fun m A B _ _ _ h => (Except.ok.inj h).symm
  propose := fun _ _ => rfl

/-- `C154_diffusion`: the last of four intervals of the trajectory of C139 (the MSD is 250001/180000 after 24 ps), without intercept. -/
example : ∃ (Z : Analyzer ℚ) (b' : Boot ℚ) (chain : List (List ℚ)), diffusionAnalyzer id (exOracle ℚ) () exUnc (exFineBase fun i j k => exIonPath exFine i j k / 10) = .ok (Z, ()) ∧
    diffusion (exPathLib' (250001 / 4320000)) { exArgs 20 false with model := true, condMax := 10 ^ 16 } Z.diff = (b', .ok ()) ∧
    b'.diffusionCoefficient = some (chain.map fun θ => θ.getD 0 0 / (2 * 3) * angstromSqPerPs) ∧ ChainFrom (exPathLib' (250001 / 4320000)) { exArgs 20 false with model := true, condMax := 10 ^ 16 } (250001 / 4320000) chain := by
  have k : ((diffusionAnalyzer id (exOracle ℚ) () exUnc (exFineBase fun i j k => exIonPath exFine i j k / 10)).toOption.map fun z =>
      ((diffusion (exPathLib (250001 / 4320000)) { exArgs 20 false with model := true, condMax := 10 ^ 16 } z.1.diff).2.toOption,
        (diffusion (exPathLib (250001 / 4320000)) { exArgs 20 false with model := true, condMax := 10 ^ 16 } z.1.diff).1.popt)) = some (some (), some 2) := by decide +kernel
  obtain ⟨Z, h, n, -, t⟩ := exRun_values (x := diffusionAnalyzer id (exOracle ℚ) () exUnc (exFineBase fun i j k => exIonPath exFine i j k / 10))
    (y := [244428613 / 882000000, 38200339 / 41343750, 125593829 / 73500000, 250001 / 180000]) (n := [8, 4, 8 / 3, 2]) (t := [6, 12, 18, 24]) (by decide +kernel)
  rw [h] at k
  simp only [Except.toOption, Option.map_some, Option.some.injEq, Prod.mk.injEq] at k
  obtain ⟨k1, k2⟩ := k
  have hrun : bootstrapGLS (exPathLib' (250001 / 4320000)) { exArgs 20 false with model := true, condMax := 10 ^ 16 } Z.diff =
      bootstrapGLS (exPathLib (250001 / 4320000)) { exArgs 20 false with model := true, condMax := 10 ^ 16 } Z.diff := by
    refine bootstrapGLS_minimize fun r m cov logdet inv slope hr hm hm' h1 h2 => ?_
    rw [t] at hr hm
    have hr' : (diffRegime [6, 12, 18, 24] ({ exArgs 20 false with model := true, condMax := 10 ^ 16 } : GlsArgs ℚ).startDt).toOption = some 3 := by decide +kernel
    rw [hr] at hr'
    obtain rfl := Option.some.inj hr'
    obtain rfl : 1 = m := hm
    simp only [exPathLib] at h2
    split_ifs at h2 with h0
    obtain rfl := Except.ok.inj h2
    show exRayMinimize _ _ _ = .ok [_]
    unfold exRayMinimize
    rw [if_pos]
    have hval : ∀ q : ℚ, logLikelihood logdet (fun _ _ => 1 / cov 0 0 : Matrix (Fin 1) (Fin 1) ℚ) (fun i => (Z.diff.dt.drop 3).getD i 0) (fun i => (Z.diff.n.drop 3).getD i 0) [q] =
        if q < 0 then none else some (-(1 / 2) * (logdet + (q * 24 - 250001 / 180000) ^ 2 / cov 0 0)) := by
      intro q
      rw [t, n]
      show (if q < 0 then none else some (-(1 / 2) * (logdet + ∑ i : Fin 1, (straightLine (([6, 12, 18, 24].drop 3 : List ℚ).getD i 0) [q] -
        ([244428613 / 882000000, 38200339 / 41343750, 125593829 / 73500000, 250001 / 180000].drop 3 : List ℚ).getD i 0) * ∑ j : Fin 1, 1 / cov 0 0 * (straightLine (([6, 12, 18, 24].drop 3 : List ℚ).getD j 0) [q] -
        ([244428613 / 882000000, 38200339 / 41343750, 125593829 / 73500000, 250001 / 180000].drop 3 : List ℚ).getD j 0)))) = _
      simp only [Fin.sum_univ_one]
      simp [straightLine]
      split_ifs
      · rfl
      · rw [Option.some.injEq]
        ring
    refine ⟨rfl, fun θ l hθ hl => ?_⟩
    obtain ⟨g, rfl⟩ := List.length_eq_one_iff.1 (hθ.trans rfl)
    rw [hval] at hl ⊢
    rw [if_neg (by norm_num)]
    split_ifs at hl with hg
    refine ⟨_, rfl, ?_⟩
    rw [← Option.some.inj hl]
    have : 0 ≤ (g * 24 - 250001 / 180000) ^ 2 / cov 0 0 := by positivity
    norm_num
    linarith
  have hd : diffusion (exPathLib' (250001 / 4320000)) { exArgs 20 false with model := true, condMax := 10 ^ 16 } Z.diff = diffusion (exPathLib (250001 / 4320000)) { exArgs 20 false with model := true, condMax := 10 ^ 16 } Z.diff := by
    unfold diffusion
    rw [hrun]
    rfl
  rw [← hd] at k1 k2
  obtain ⟨taus, k, -, -, c1, rfl, c2⟩ := C154_diffusion exNum exParams exIons ["Na", "O", "Cl"] [0, 2] [1] exIons_picks exGrid 4 (by decide) (by decide) _ _ _ (exIonPath exFine) (exIon_stored (by unfold HalfCell; decide +kernel)) _ 1
    (.inl ⟨rfl, rfl⟩) id (exOracle ℚ) exUnc rfl rfl () () Z h (exPathLib' (250001 / 4320000)) _ (exPathLib_dependable _) _ (ok_of_outcome k1) rfl (le_refl _) 2 k2 (by norm_num)
  obtain rfl := c1 (by decide)
  obtain ⟨chain, d1, d2⟩ := c2 (fun h => by cases h)
  refine ⟨Z, _, chain, h, ok_of_outcome k1, ?_, ?_⟩
  · rw [d1, show (axesOf exUnc.dimension).card = 3 by decide +kernel]
    norm_num
  · convert d2 using 1
    decide +kernel

end Kinisi
