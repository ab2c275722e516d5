import Verif.Props.Chords
import Verif.Props.Units
import Verif.Props.Increments

/-!
# C149: the line the sampler starts from

C141 and C146-C148 speak about the line of highest likelihood (`ModelFit`, `FittedLine`).  Here: `bootstrap_GLS` samples the likelihood of that fit, starting from that line.
-/

set_option linter.unusedSectionVars false
set_option linter.unusedVariables false

namespace Kinisi
open Spec
variable {K : Type} [Field K] [LinearOrder K] [IsStrictOrderedRing K] [FloorRing K] {G : Type}

/-- A fit with an intercept, step by step. -/
theorem fit_line_start {L : GlsLib K} {a : GlsArgs K} {b b' : Boot K} (h : bootstrapGLS L a b = (b', .ok ())) (hi : a.fitIntercept = true)
    (hcov : b'.covariance = b'.npdCovariance) (hmin : FindsMaximum L.minimize) :
    ∃ (r m : ℕ) (A P : Matrix (Fin m) (Fin m) K) (v : List (Option K)) (ld g c best : K) (chain : List (List K)), diffRegime b.dt a.startDt = .ok r ∧
      m = b.n.length - r ∧ m = b.dt.length - r ∧ b'.modelV = some v ∧ v.length = m ∧ populateCovariance v (b.nO.drop r) = .ok (rowsOf A) ∧ L.pinvh m A = .ok P ∧ L.slogdet m A = .ok ld ∧
      BestLine (fitLL b r ld P) g c best ∧ b'.flatchain = some chain ∧
      getChain a.nBurn a.thin (runChain L (fitLL b r ld P) (a.nSamples + a.nBurn) 0 ((List.range a.nWalkers).map fun w =>
        [g + g * (1 / 1000) * L.randn w 0, c + c * (1 / 1000) * L.randn w 1])) = .ok chain := by
  obtain ⟨r, m, A, chain, v, M, e1, e2, e3, e4, e5, e6, e7, e8⟩ := bootstrapGLS_parts h
  obtain ⟨ld, P, slope, ml, q1, q2, q3, q4, q5, q6, q7⟩ := sampleChain_ok e7
  rw [e5, e6] at hcov
  have hM : M = rowsOf A := (Option.some.inj hcov).symm
  rw [hM] at e4
  have hst : (startPoint a.fitIntercept slope).length = 2 := by unfold startPoint; rw [hi]; simp
  obtain ⟨m1, m2⟩ := hmin _ _ _ q6
  rw [hst] at m1 m2
  have hz : fitLL b r ld P [0, 0] = some (-(1 / 2) * (ld + dotProduct (fun i : Fin m => straightLine ((b.dt.drop r).getD i 0) [0, 0] - (b.n.drop r).getD i 0)
      (P.mulVec fun i : Fin m => straightLine ((b.dt.drop r).getD i 0) [0, 0] - (b.n.drop r).getD i 0))) := by
    unfold fitLL logLikelihood
    rw [if_neg (by simp)]
  obtain ⟨best, m3, -⟩ := m2 [0, 0] _ rfl hz
  match ml, m1 with
  | [g, c], _ =>
    refine ⟨r, m, A, P, v, ld, g, c, best, chain, e1, by rw [← q4, List.length_drop], by rw [← q3, List.length_drop], e2, e3, e4, q2, q1, ⟨m3, fun g' c' l hl => ?_⟩, e8, q7⟩
    obtain ⟨l', k1, k2⟩ := m2 [g', c'] l rfl hl
    have := m3.symm.trans k1
    rw [Option.some.inj this]
    exact k2

/-- The matrix of a fit with the random walk model is positive definite. -/
theorem model_pd {b : Boot K} {r m : ℕ} {A : Matrix (Fin m) (Fin m) K} (hI : InverseCounts b) (hal : Aligned b) (hm : m = b.n.length - r) {a : K} {v : List (Option K)} (ha : 0 < a)
    (hv : modelVariance (b.nO.drop r) (b.dt.drop r) a = .ok v) (hA : populateCovariance v (b.nO.drop r) = .ok (rowsOf A)) : PD A := by
  obtain ⟨⟨κ, hκ⟩, ht, hn⟩ := hI
  obtain ⟨l1, l2, l3⟩ := hal
  by_cases hm0 : m = 0
  · subst hm0
    exact fun x hx => absurd (funext fun i => i.elim0) hx
  have gt : ∀ i : Fin m, b.dt[r + i.val]? = some ((b.dt.drop r).getD i 0) := fun i => by
    rw [List.getD_eq_getElem?_getD, List.getElem?_drop, List.getElem?_eq_getElem (by have := i.isLt; omega)]; rfl
  have gn : ∀ i : Fin m, b.nO[r + i.val]? = some ((b.nO.drop r).getD i 0) := fun i => by
    rw [List.getD_eq_getElem?_getD, List.getElem?_drop, List.getElem?_eq_getElem (by have := i.isLt; omega)]; rfl
  set T : Fin m → K := fun i => (b.dt.drop r).getD i 0 with hT
  set N : Fin m → K := fun i => (b.nO.drop r).getD i 0 with hN
  have e1 : b.dt.drop r = List.ofFn T := by
    apply List.ext_getElem
    · simp; omega
    · intro i h1 h2
      simp only [List.getElem_ofFn, hT, List.getD_eq_getElem?_getD, List.getElem?_eq_getElem h1, Option.getD_some]
  have e2 : b.nO.drop r = List.ofFn N := by
    apply List.ext_getElem
    · simp; omega
    · intro i h1 h2
      simp only [List.getElem_ofFn, hN, List.getD_eq_getElem?_getD, List.getElem?_eq_getElem h1, Option.getD_some]
  have hNp : ∀ i, 0 < N i := fun i => hn _ (List.mem_of_getElem? (gn i))
  have hTp : ∀ i, 0 < T i := fun i => ht _ (List.mem_of_getElem? (gt i))
  have hc : ∀ i, N i * T i = κ := fun i => hκ _ _ _ (gt i) (gn i)
  have hκp : 0 < κ := by rw [← hc ⟨0, by omega⟩]; exact mul_pos (hNp _) (hTp _)
  have hst : ∀ i j, i < j → T i < T j := by
    intro i j hij
    have := List.pairwise_iff_getElem.1 l3 (r + i.val) (r + j.val) (by have := i.isLt; omega) (by have := j.isLt; omega) (by have : i.val < j.val := hij; omega)
    have h1 := gt i
    have h2 := gt j
    rw [List.getElem?_eq_getElem (by have := i.isLt; omega)] at h1
    rw [List.getElem?_eq_getElem (by have := j.isLt; omega)] at h2
    rw [Option.some.inj h1, Option.some.inj h2] at this
    exact this
  obtain ⟨f1, A', f2, f3, f4, f5⟩ := model_cov N T a κ hNp hc hκp.le ha.le (fun i j hij => by
    rcases hij.lt_or_eq with h | rfl
    · exact (hst i j h).le
    · exact le_refl _)
  rw [e1, e2, f1] at hv
  obtain rfl := Except.ok.inj hv
  rw [e2, f2] at hA
  obtain rfl := rowsOf_injective (Except.ok.inj hA)
  exact f5 ha hκp hst

/-- **C149, model.** The fit with `model=True` and an intercept, where no conditioning was necessary and the fitted coefficient is positive: with an optimiser that only returns maxima and an exact inverse, the walkers start
from the line of the random walk fit from the first time that is not below `start_dt` on, each coefficient changed by a thousandth of itself times a normal deviate, and the chain stored is that of the likelihood of this
line.  If two times are fitted, the gradient is the one that C147 gives. -/
theorem C149_model {L : GlsLib K} {a : GlsArgs K} {b b' : Boot K} (h : bootstrapGLS L a b = (b', .ok ())) (hi : a.fitIntercept = true) (hm : a.model = true)
    (hcov : b'.covariance = b'.npdCovariance) (hmin : FindsMaximum L.minimize) (hinv : ∀ m A P, PD A → L.pinvh m A = .ok P → A * P = 1)
    (α : K) (hα : b'.popt = some α) (hα0 : 0 < α) (hb : InverseCounts b ∧ Aligned b) :
    ∃ (r m : ℕ) (P : Matrix (Fin m) (Fin m) K) (t₀ ld g c best : K) (chain : List (List K)), b.dt[r]? = some t₀ ∧ a.startDt ≤ t₀ ∧ (∀ (k : ℕ) (t : K), k < r → b.dt[k]? = some t → t < a.startDt) ∧
      ModelFit b r g c ∧ BestLine (fitLL b r ld P) g c best ∧ b'.flatchain = some chain ∧
      getChain a.nBurn a.thin (runChain L (fitLL b r ld P) (a.nSamples + a.nBurn) 0 ((List.range a.nWalkers).map fun w =>
        [g + g * (1 / 1000) * L.randn w 0, c + c * (1 / 1000) * L.randn w 1])) = .ok chain ∧
      (∀ k, 0 < k → k + 1 = b.n.length - r →
        g = max 0 ((valuesFrom b r 0 - weightedMean (chordWeight (timesFrom b r)) (chordIntercept (timesFrom b r) (valuesFrom b r)) k) / timesFrom b r 0)) := by
  obtain ⟨r, m, A, P, v, ld, g, c, best, chain, e1, e2, e3, e4, e5, e6, e7, e8, e9, e10, e11⟩ := fit_line_start h hi hcov hmin
  obtain ⟨r', α', v', p1, p2, p3, p4⟩ := bootstrapGLS_model h hm
  rw [e1] at p1
  obtain rfl := Except.ok.inj p1
  rw [hα] at p2
  obtain rfl := Option.some.inj p2
  rw [e4] at p4
  obtain rfl := Option.some.inj p4
  obtain ⟨hr, r1, r2⟩ := diffRegime_ok_iff.mp e1
  have hAP := hinv m A P (model_pd hb.1 hb.2 e2 hα0 p3 e6) e7
  have hfit : ModelFit b r g c := ⟨m, P, ld, best, e2, ⟨α, v, A, hα0, p3, e6, hAP⟩, e9⟩
  refine ⟨r, m, P, _, ld, g, c, best, chain, List.getElem?_eq_getElem hr, r1, fun k t hk ht => ?_, hfit, e9, e10, e11, fun k hk hkm => (C147_model b hb r k hkm hk g c hfit).1⟩
  have := r2 k hk
  rw [List.getElem?_eq_getElem (by omega)] at ht
  rw [← Option.some.inj ht]
  exact this

/-- **C149, runs.** From the file to the sampler: one trajectory in any format, MSD, MSTD or MSCD, and a fit with `model=True`, an intercept and two or more intervals.  The walkers start from the gradient that C147 gives,
computed from the intervals and values recorded. -/
theorem C149_runs (E : Num K) (hfl : E.fl = id) (P : Params K) (hsm : P.sampling = "multi-origin") (hc : 0 < P.stepSkip.val * P.timeStep.val) (S : Select K) (fr : List (Frame K)) (uni : Universe K)
    (base : PyM (Base K)) (unit : K) (hb : ReadFrames E P S fr uni base unit) (sq : K → K) (o : Oracle K G) (U : UncParams K) (hsub : U.sub = 1) (charge : Charge K) (g₁ g₂ : G) (Z : Analyzer K)
    (h : diffusionAnalyzer sq o g₁ U base = .ok (Z, g₂) ∨ jumpAnalyzer sq o g₁ U base = .ok (Z, g₂) ∨ conductivityAnalyzer sq o g₁ U charge base = .ok (Z, g₂))
    (hpos : ∀ t ∈ Z.deltaT, 0 < t) (hasc : Z.deltaT.Pairwise (· < ·)) (L : GlsLib K) (a : GlsArgs K) (b' : Boot K) (hg : bootstrapGLS L a Z.diff = (b', .ok ())) (hi : a.fitIntercept = true) (hm : a.model = true)
    (hcov : b'.covariance = b'.npdCovariance) (hmin : FindsMaximum L.minimize) (hinv : ∀ m A P, PD A → L.pinvh m A = .ok P → A * P = 1) (α : K) (hα : b'.popt = some α) (hα0 : 0 < α)
    (r : ℕ) (t₀ : K) (hr : Z.diff.dt[r]? = some t₀) (hs : a.startDt ≤ t₀) (hfirst : ∀ (k : ℕ) (t : K), k < r → Z.diff.dt[k]? = some t → t < a.startDt) (k : ℕ) (hk : 0 < k) (hkn : k + 1 = Z.diff.n.length - r) :
    ∃ (g c : K) (chain : List (List K)) (ll : List K → Option K), g = max 0 ((valuesFrom Z.diff r 0 - weightedMean (chordWeight (timesFrom Z.diff r)) (chordIntercept (timesFrom Z.diff r) (valuesFrom Z.diff r)) k) / t₀) ∧
      (0 < g → g * t₀ + c = valuesFrom Z.diff r 0) ∧ b'.flatchain = some chain ∧ (∀ g' c' l, ll [g', c'] = some l → ∃ l', ll [g, c] = some l' ∧ l ≤ l') ∧
      getChain a.nBurn a.thin (runChain L ll (a.nSamples + a.nBurn) 0 ((List.range a.nWalkers).map fun w => [g + g * (1 / 1000) * L.randn w 0, c + c * (1 / 1000) * L.randn w 1])) = .ok chain := by
  have hal := C147_runs E hfl P hsm hc S fr uni base unit hb sq o U hsub charge g₁ g₂ Z h hpos hasc
  obtain ⟨r', m, W, t₁, ld, g, c, best, chain, a1, a2, a3, a4, a5, a6, a7, a8⟩ := C149_model hg hi hm hcov hmin hinv α hα hα0 hal
  obtain rfl : r' = r := by
    rcases lt_trichotomy r' r with hlt | he | hlt
    · exact absurd a2 (not_le.2 (hfirst r' _ hlt a1))
    · exact he
    · exact absurd hs (not_le.2 (a3 r _ hlt hr))
  have ht : timesFrom Z.diff r' 0 = t₀ := by simp [timesFrom, List.getD_eq_getElem?_getD, hr]
  have e := (C147_model Z.diff hal r' k hkn hk g c a4)
  rw [ht] at e
  exact ⟨g, c, chain, fitLL Z.diff r' ld W, e.1, fun h0 => (e.2 h0).2, a6, fun g' c' l hl => ⟨best, a5.1, a5.2 g' c' l hl⟩, a7⟩

/-- With measured variances: the variances of the fit are those recorded. -/
theorem bootstrapGLS_measured {L : GlsLib K} {a : GlsArgs K} {b b' : Boot K} (h : bootstrapGLS L a b = (b', .ok ())) (hm : a.model = false) :
    ∃ r, diffRegime b.dt a.startDt = .ok r ∧ b'.modelV = some (b.v.drop r) := by
  unfold bootstrapGLS at h
  rw [show (markFit a b).dt = b.dt from rfl] at h
  cases hr : diffRegime b.dt a.startDt with
  | error e => rw [hr] at h; cases (Prod.mk.inj h).2
  | ok r =>
  rw [hr] at h
  simp only [fitFrom] at h
  unfold generateCovariance chooseVariances at h
  rw [if_neg (by rw [hm]; simp)] at h
  simp only at h
  refine ⟨r, rfl, ?_⟩
  split at h
  · cases (Prod.mk.inj h).2
  · rename_i b2 m cov hg
    split at hg
    · cases (Prod.mk.inj hg).2
    · split at hg
      · cases (Prod.mk.inj hg).2
      · have e2 := (Prod.mk.inj hg).1
        split at h
        · cases (Prod.mk.inj h).2
        · obtain ⟨-, ⟨gr, ic, e3⟩, -⟩ := storeChain_fit h
          rw [e3, ← e2]
          rfl

/-- **C149, measured.** The same for the fit with the measured variances (`model=False`): these are positive from the first fitted interval on, and with the squared number of observations they increase. -/
theorem C149_measured {L : GlsLib K} {a : GlsArgs K} {b b' : Boot K} (h : bootstrapGLS L a b = (b', .ok ())) (hi : a.fitIntercept = true) (hm : a.model = false)
    (hcov : b'.covariance = b'.npdCovariance) (hmin : FindsMaximum L.minimize) (hinv : ∀ m A P, PD A → L.pinvh m A = .ok P → A * P = 1) (hb : InverseCounts b ∧ Aligned b)
    (h2 : ∃ (i : ℕ) (t : K), b.dt[i]? = some t ∧ a.startDt ≤ t ∧ i + 1 < b.dt.length)
    (hv : ∀ (i : ℕ) (t : K), b.dt[i]? = some t → a.startDt ≤ t → ∃ x, b.v[i]? = some (some x) ∧ 0 < x)
    (hinc : ∀ (i : ℕ) (t x x' N N' : K), b.dt[i]? = some t → a.startDt ≤ t → b.v[i]? = some (some x) → b.v[i + 1]? = some (some x') → b.nO[i]? = some N → b.nO[i + 1]? = some N' → x * N ^ 2 < x' * N' ^ 2) :
    ∃ (r m : ℕ) (P : Matrix (Fin m) (Fin m) K) (t₀ y₀ ld g c best : K) (chain : List (List K)), b.dt[r]? = some t₀ ∧ b.n[r]? = some y₀ ∧ a.startDt ≤ t₀ ∧ (∀ (k : ℕ) (t : K), k < r → b.dt[k]? = some t → t < a.startDt) ∧
      FittedLine b r g c ∧ BestLine (fitLL b r ld P) g c best ∧ b'.flatchain = some chain ∧
      getChain a.nBurn a.thin (runChain L (fitLL b r ld P) (a.nSamples + a.nBurn) 0 ((List.range a.nWalkers).map fun w =>
        [g + g * (1 / 1000) * L.randn w 0, c + c * (1 / 1000) * L.randn w 1])) = .ok chain ∧ (0 < g → g * t₀ + c = y₀) := by
  obtain ⟨r, m, A, P, v, ld, g, c, best, chain, e1, e2, e3, e4, e5, e6, e7, e8, e9, e10, e11⟩ := fit_line_start h hi hcov hmin
  obtain ⟨r', p1, p2⟩ := bootstrapGLS_measured h hm
  rw [e1] at p1
  obtain rfl := Except.ok.inj p1
  rw [e4] at p2
  obtain rfl := Option.some.inj p2
  obtain ⟨hr, r1, r2⟩ := diffRegime_ok_iff.mp e1
  obtain ⟨l1, l2, l3⟩ := hb.2
  have hvl : b.v.length = b.n.length := by rw [List.length_drop] at e5; omega
  have hge : ∀ i (hi : i < b.dt.length), r ≤ i → a.startDt ≤ b.dt[i] := by
    intro i hil hri
    refine le_trans r1 ?_
    rcases hri.lt_or_eq with h0 | rfl
    · exact (List.pairwise_iff_getElem.mp l3 r i hr hil h0).le
    · exact le_refl _
  have hv' : ∀ i, r ≤ i → i < b.n.length → ∃ x, b.v[i]? = some (some x) ∧ 0 < x := fun i h1 h2 =>
    hv i _ (List.getElem?_eq_getElem (by omega)) (hge i (by omega) h1)
  have hinc' : ∀ (i : ℕ) (x x' N N' : K), r ≤ i → b.v[i]? = some (some x) → b.v[i + 1]? = some (some x') → b.nO[i]? = some N → b.nO[i + 1]? = some N' → x * N ^ 2 < x' * N' ^ 2 :=
    fun i x x' N N' h1 k1 k2 k3 k4 => by
      have := (List.getElem?_eq_some_iff.1 k3).1
      exact hinc i _ x x' N N' (List.getElem?_eq_getElem (by omega)) (hge i (by omega) h1) k1 k2 k3 k4
  obtain ⟨vf, nf, extra, hA, hf⟩ := cov_sequences e6 e2 hvl hv' hb.1.2.2
  have hstep : ∀ i j, i < j → j < m → vf i * nf i ^ 2 < vf j * nf j ^ 2 := by
    intro i j hij
    induction j with
    | zero => omega
    | succ j ih =>
      intro hj
      have hs := hinc' (r + j) _ _ _ _ (by omega) (hf j (by omega)).1 (hf (j + 1) hj).1 (hf j (by omega)).2.2.1 (hf (j + 1) hj).2.2.1
      rcases Nat.lt_or_ge i j with h0 | h0
      · exact (ih h0 (by omega)).trans hs
      · obtain rfl : i = j := by omega
        exact hs
  have hpd : PD A := (C41_psd_iff (fun i : Fin m => vf i) (fun i : Fin m => nf i) extra (fun i => (hf i i.2).2.2.2) A hA).2.2
    ⟨fun i => mul_pos (hf i i.2).2.1 (pow_pos (hf i i.2).2.2.2 2), fun i j hij => hstep i j hij j.2⟩
  have hAP := hinv m A P hpd e7
  obtain ⟨i₀, t₁, k1, k2, k3⟩ := h2
  have hir : r ≤ i₀ := by
    by_contra hlt
    have := r2 i₀ (by omega)
    rw [List.getElem?_eq_getElem (by omega)] at k1
    rw [Option.some.inj k1] at this
    exact absurd k2 (not_le.2 this)
  obtain ⟨m', rfl⟩ : ∃ m', m = m' + 1 := ⟨m - 1, by omega⟩
  have hfit : FittedLine b r g c := by
    refine ⟨b.v, m', P, ld, best, hvl, e2, ⟨A, e6, hAP⟩, hv', hb.1.2.2, hinc', ⟨i₀, b.dt[i₀], b.dt[i₀ + 1], hir, List.getElem?_eq_getElem (by omega), List.getElem?_eq_getElem k3, ?_⟩, e9⟩
    exact (List.pairwise_iff_getElem.mp l3 i₀ (i₀ + 1) (by omega) k3 (by omega)).ne'
  refine ⟨r, m' + 1, P, b.dt[r], b.n[r]'(by omega), ld, g, c, best, chain, List.getElem?_eq_getElem hr, List.getElem?_eq_getElem _, r1, fun k t hk ht => ?_, hfit, e9, e10, e11, fun hg => ?_⟩
  · have := r2 k hk
    rw [List.getElem?_eq_getElem (by omega)] at ht
    rw [← Option.some.inj ht]
    exact this
  · have := ((C147_measured b hb r m' e2 (by omega) g c hfit).2 hg).1
    simpa [timesFrom, valuesFrom, List.getD_eq_getElem?_getD, List.getElem?_eq_getElem hr, List.getElem?_eq_getElem (show r < b.n.length by omega)] using this


/-! ## Examples -/

/-- Routines for the examples: the matrix with rows 1, 2 and 2, 8 and a fixed line as the result of the optimisation. -/
def exFitLib : GlsLib ℚ := { exModelLib with minimize := fun _ _ => .ok [2, 1], propose := fun s w => [(s : ℚ) + 1 - 3 * w, 1 / 2] }

/-- A minimiser that returns the line with gradient 2 and intercept 1 if this is a maximum. -/
noncomputable def exFitMinimize (f : List ℚ → Option ℚ) (x0 : List ℚ) : PyM (List ℚ) := by
  classical
  exact if [(2 : ℚ), 1].length = x0.length ∧ ∀ θ l, θ.length = x0.length → f θ = some l → ∃ l', f [2, 1] = some l' ∧ l ≤ l' then .ok [2, 1] else .error .external

theorem exFitMinimize_finds : FindsMaximum exFitMinimize := by
  intro f x0 ml h
  unfold exFitMinimize at h
  split_ifs at h with hex
  rw [← Except.ok.inj h]
  exact hex

/-- The values 3, 5 at the times 1, 2 with 2, 1 observations. -/
def exFitBoot : Boot ℚ := { exBoot with dt := [1, 2], n := [3, 5], v := [some 1, some 8], nO := [2, 1] }

theorem exFit_run (mo : Bool) : bootstrapGLS { exFitLib with minimize := exFitMinimize } { exArgs 1 true with model := mo } exFitBoot = bootstrapGLS exFitLib { exArgs 1 true with model := mo } exFitBoot := by
  refine bootstrapGLS_minimize fun r m cov logdet inv slope hr hm hm' h1 h2 => ?_
  have hr' : (diffRegime exFitBoot.dt (1 : ℚ)).toOption = some 0 := by decide +kernel
  rw [show ({ exArgs 1 true with model := mo } : GlsArgs ℚ).startDt = 1 from rfl] at hr
  rw [hr] at hr'
  obtain rfl := Option.some.inj hr'
  obtain rfl : 2 = m := hm
  have hinv : inv = !![2, -1 / 2; -1 / 2, 1 / 4] := by
    simp only [exFitLib, exModelLib] at h2
    split_ifs at h2 with h
    exact (Except.ok.inj h2).symm
  subst hinv
  obtain ⟨best, k1, k2, -⟩ := C87_exact_line logdet (!![2, -1 / 2; -1 / 2, 1 / 4] : Matrix (Fin 2) (Fin 2) ℚ) (by intro i j; fin_cases i <;> fin_cases j <;> rfl)
    (by
      intro x
      have : ∑ i, ∑ j, x i * (!![2, -1 / 2; -1 / 2, 1 / 4] : Matrix (Fin 2) (Fin 2) ℚ) i j * x j = x 0 ^ 2 + (x 0 - x 1 / 2) ^ 2 := by
        simp [Fin.sum_univ_two]
        ring
      rw [this]
      positivity) (fun i => (exFitBoot.dt.drop 0).getD i 0) (fun i => (exFitBoot.n.drop 0).getD i 0) 2 1 (by norm_num) (by decide +kernel)
  show exFitMinimize _ _ = .ok [2, 1]
  unfold exFitMinimize
  rw [if_pos]
  refine ⟨rfl, fun θ l hθ hl => ⟨best, k1, ?_⟩⟩
  match θ, hθ with
  | [g', c'], _ => exact k2 g' c' l hl

theorem exFit_aligned : InverseCounts exFitBoot ∧ Aligned exFitBoot := by
  refine ⟨⟨⟨2, ?_⟩, by decide +kernel, by decide +kernel⟩, by decide +kernel, by decide +kernel, by decide +kernel⟩
  intro k t N h1 h2
  match k with
  | 0 => cases h1; cases h2; decide +kernel
  | 1 => cases h1; cases h2; decide +kernel
  | k + 2 => cases h1

/-- `C149_model`: the walkers start from the line with gradient 2 and intercept 1. -/
example : ∃ b' : Boot ℚ, bootstrapGLS { exFitLib with minimize := exFitMinimize } { exArgs 1 true with model := true } exFitBoot = (b', .ok ()) ∧
    ∃ g c best ld chain, ∃ P : Matrix (Fin 2) (Fin 2) ℚ, ModelFit exFitBoot 0 g c ∧ BestLine (fitLL exFitBoot 0 ld P) g c best ∧ b'.flatchain = some chain ∧ g = 2 := by
  have o1 : (bootstrapGLS exFitLib { exArgs 1 true with model := true } exFitBoot).2.toOption = some () := by decide +kernel
  have o3 : (bootstrapGLS exFitLib { exArgs 1 true with model := true } exFitBoot).1.popt = some 2 := by decide +kernel
  have o4 : (bootstrapGLS exFitLib { exArgs 1 true with model := true } exFitBoot).1.covariance =
    (bootstrapGLS exFitLib { exArgs 1 true with model := true } exFitBoot).1.npdCovariance := by decide +kernel
  have hrun := (exFit_run true).trans (ok_of_outcome o1)
  refine ⟨_, hrun, ?_⟩
  obtain ⟨r, m, P, t₀, ld, g, c, best, chain, a1, a2, a3, a4, a5, a6, a7, a8⟩ := C149_model hrun rfl rfl o4 exFitMinimize_finds (fun m A P _ h => exModelLib_inv m A P h) 2 o3 (by norm_num) exFit_aligned
  obtain rfl : r = 0 := by
    by_contra h0
    exact absurd (a3 0 1 (by omega) rfl) (by decide +kernel)
  obtain ⟨m', P', ld', best', b1, b2, b3⟩ := a4
  obtain rfl : m' = 2 := b1
  refine ⟨g, c, best', ld', chain, P', ⟨2, P', ld', best', rfl, b2, b3⟩, b3, a6, ?_⟩
  rw [a8 1 (by omega) rfl]
  decide +kernel

/-- `C149_measured`: the line goes through the first point. -/
example : ∃ b' : Boot ℚ, bootstrapGLS { exFitLib with minimize := exFitMinimize } { exArgs 1 true with model := false } exFitBoot = (b', .ok ()) ∧
    ∃ g c chain, FittedLine exFitBoot 0 g c ∧ b'.flatchain = some chain ∧ (0 < g → g * 1 + c = 3) := by
  have o1 : (bootstrapGLS exFitLib { exArgs 1 true with model := false } exFitBoot).2.toOption = some () := by decide +kernel
  have o4 : (bootstrapGLS exFitLib { exArgs 1 true with model := false } exFitBoot).1.covariance =
    (bootstrapGLS exFitLib { exArgs 1 true with model := false } exFitBoot).1.npdCovariance := by decide +kernel
  have hrun := (exFit_run false).trans (ok_of_outcome o1)
  refine ⟨_, hrun, ?_⟩
  obtain ⟨r, m, P, t₀, y₀, ld, g, c, best, chain, a1, a2, a3, a4, a5, a6, a7, a8, a9⟩ := C149_measured hrun rfl rfl o4 exFitMinimize_finds (fun m A P _ h => exModelLib_inv m A P h) exFit_aligned
    ⟨0, 1, rfl, by decide +kernel, by decide +kernel⟩
    (fun i t h _ => by
      match i with
      | 0 => exact ⟨1, rfl, by norm_num⟩
      | 1 => exact ⟨8, rfl, by norm_num⟩
      | i + 2 => cases h)
    (fun i t x x' N N' _ _ h1 h2 h3 h4 => by
      match i with
      | 0 => cases h1; cases h2; cases h3; cases h4; decide +kernel
      | i + 1 => cases h2)
  obtain rfl : r = 0 := by
    by_contra h0
    exact absurd (a4 0 1 (by omega) rfl) (by decide +kernel)
  obtain rfl : (1 : ℚ) = t₀ := Option.some.inj a1
  obtain rfl : (3 : ℚ) = y₀ := Option.some.inj a2
  exact ⟨g, c, chain, a5, a7, a9⟩

/-- Routines for an analysis: the matrix of the random walk model with coefficient 1/6 and its inverse. -/
def exWalkLib : GlsLib ℚ := { exFitLib with
  curveFit := fun _ _ _ => .ok (1 / 6)
  eig := fun m A => match m, A with
    | 2, A => if A = !![1, 2, 3; 2, 8, 12; 3, 12, 27] then .ok (fun i => [1, 4, 9].getD i.val 0, !![1, 0, 0; 2, 1, 0; 3, 3 / 2, 1]) else .error .linAlgError
    | _, _ => .error .linAlgError
  pinvh := fun m A => match m, A with
    | 3, A => if A = !![1, 2, 3; 2, 8, 12; 3, 12, 27] then .ok !![2, -1 / 2, 0; -1 / 2, 1 / 2, -1 / 6; 0, -1 / 6, 1 / 9] else .error .linAlgError
    | _, _ => .error .linAlgError
  minimize := fun _ _ => .ok [23 / 120, -13 / 20] }

theorem exWalkLib_inv (m : ℕ) (A P : Matrix (Fin m) (Fin m) ℚ) (h : exWalkLib.pinvh m A = .ok P) : A * P = 1 := by
  match m, A, P, h with
  | 0, A, P, h => cases h
  | 1, A, P, h => cases h
  | 2, A, P, h => cases h
  | 3, A, P, h =>
    simp only [exWalkLib] at h
    split_ifs at h with hA
    rw [← Except.ok.inj h, hA]
    decide +kernel
  | m + 4, A, P, h => cases h

noncomputable def exWalkMinimize (f : List ℚ → Option ℚ) (x0 : List ℚ) : PyM (List ℚ) := by
  classical
  exact if [(23 / 120 : ℚ), -13 / 20].length = x0.length ∧ ∀ θ l, θ.length = x0.length → f θ = some l → ∃ l', f [23 / 120, -13 / 20] = some l' ∧ l ≤ l' then .ok [23 / 120, -13 / 20] else .error .external

theorem exWalkMinimize_finds : FindsMaximum exWalkMinimize := by
  intro f x0 ml h
  unfold exWalkMinimize at h
  split_ifs at h with hex
  rw [← Except.ok.inj h]
  exact hex

/-- `C149_runs`: for the trajectory with the MSD 1/2, 7/4, 5/2 at the times 6, 12, 18 the walkers start from the gradient 23/120. -/
example : ∃ (Z : Analyzer ℚ) (b' : Boot ℚ), diffusionAnalyzer id (exOracle ℚ) () exUnc (fromAse exNum exParams exSelect 1 none (.one exStepsA)) = .ok (Z, ()) ∧
    bootstrapGLS { exWalkLib with minimize := exWalkMinimize } { exArgs 1 true with model := true } Z.diff = (b', .ok ()) ∧
    ∃ (g c : ℚ) (chain : List (List ℚ)) (ll : List ℚ → Option ℚ), g = 23 / 120 ∧ c = -13 / 20 ∧ b'.flatchain = some chain ∧
      getChain 1 2 (runChain { exWalkLib with minimize := exWalkMinimize } ll 6 0 ((List.range 2).map fun w => [g + g * (1 / 1000) * w, c + c * (1 / 1000) * w])) = .ok chain := by
  obtain ⟨Z, e, n, v, o, t⟩ := exSteps_values (x := diffusionAnalyzer id (exOracle ℚ) () exUnc (fromAse exNum exParams exSelect 1 none (.one exStepsA)))
    (y := [1 / 2, 7 / 4, 5 / 2]) (v := [1 / 20, 3 / 4, 9 / 4]) (n := [6, 3, 2]) (by decide +kernel)
  have k : ((diffusionAnalyzer id (exOracle ℚ) () exUnc (fromAse exNum exParams exSelect 1 none (.one exStepsA))).toOption.map fun z =>
      ((bootstrapGLS exWalkLib { exArgs 1 true with model := true } z.1.diff).2.toOption, (bootstrapGLS exWalkLib { exArgs 1 true with model := true } z.1.diff).1.popt,
        decide ((bootstrapGLS exWalkLib { exArgs 1 true with model := true } z.1.diff).1.covariance = (bootstrapGLS exWalkLib { exArgs 1 true with model := true } z.1.diff).1.npdCovariance), z.1.deltaT)) =
      some (some (), some (1 / 6), true, [6, 12, 18]) := by decide +kernel
  rw [e] at k
  simp only [Except.toOption, Option.map_some, Option.some.injEq, Prod.mk.injEq, decide_eq_true_eq] at k
  obtain ⟨k1, k2, k3, k4⟩ := k
  have hrun : bootstrapGLS { exWalkLib with minimize := exWalkMinimize } { exArgs 1 true with model := true } Z.diff = bootstrapGLS exWalkLib { exArgs 1 true with model := true } Z.diff := by
    refine bootstrapGLS_minimize fun r m cov logdet inv slope hr hm hm' h1 h2 => ?_
    have hr' : (diffRegime [6, 12, 18] (1 : ℚ)).toOption = some 0 := by decide +kernel
    rw [t, show ({ exArgs 1 true with model := true } : GlsArgs ℚ).startDt = 1 from rfl] at hr
    rw [hr] at hr'
    obtain rfl := Option.some.inj hr'
    rw [t] at hm
    obtain rfl : 3 = m := hm
    have hinv : inv = !![2, -1 / 2, 0; -1 / 2, 1 / 2, -1 / 6; 0, -1 / 6, 1 / 9] := by
      simp only [exWalkLib] at h2
      split_ifs at h2 with h
      exact (Except.ok.inj h2).symm
    subst hinv
    rw [t, n]
    obtain ⟨best, k1, k2, -⟩ := C45_maximum logdet (!![2, -1 / 2, 0; -1 / 2, 1 / 2, -1 / 6; 0, -1 / 6, 1 / 9] : Matrix (Fin 3) (Fin 3) ℚ) (by intro i j; fin_cases i <;> fin_cases j <;> rfl)
      (by
        intro x
        have : ∑ i, ∑ j, x i * (!![2, -1 / 2, 0; -1 / 2, 1 / 2, -1 / 6; 0, -1 / 6, 1 / 9] : Matrix (Fin 3) (Fin 3) ℚ) i j * x j = x 0 ^ 2 + (x 0 - x 1 / 2) ^ 2 + (x 1 / 2 - x 2 / 3) ^ 2 := by
          simp [Fin.sum_univ_three]
          ring
        rw [this]
        positivity) (fun i => (([6, 12, 18] : List ℚ).drop 0).getD i 0) (fun i => (([1 / 2, 7 / 4, 5 / 2] : List ℚ).drop 0).getD i 0) (23 / 120) (-13 / 20) (by norm_num) (by unfold NormalEquations; decide +kernel)
    show exWalkMinimize _ _ = .ok [23 / 120, -13 / 20]
    unfold exWalkMinimize
    rw [if_pos]
    refine ⟨rfl, fun θ l hθ hl => ⟨best, k1, ?_⟩⟩
    match θ, hθ with
    | [g', c'], _ => exact k2 g' c' l hl
  have hok := hrun.trans (ok_of_outcome k1)
  obtain ⟨g, c, chain, ll, q1, q2, q3, q4, q5⟩ := C149_runs exNum rfl exParams rfl (by decide +kernel) exSelect exStepsA ([], []) _ 1 (.inl ⟨rfl, rfl⟩) id (exOracle ℚ) exUnc rfl (.scalar 1) () () Z (.inl e)
    (by rw [k4]; decide +kernel) (by rw [k4]; decide +kernel) _ _ _ hok rfl rfl k3 exWalkMinimize_finds (fun m A P _ h => exWalkLib_inv m A P h) (1 / 6) k2 (by norm_num) 0 6 (by rw [t]; rfl) (by decide +kernel)
    (fun k t hk => by omega) 2 (by omega) (by rw [n]; rfl)
  have eT : timesFrom Z.diff 0 = exIncr [6, 12, 18] := by funext i; simp [timesFrom, exIncr, t]
  have eY : valuesFrom Z.diff 0 = exIncr [1 / 2, 7 / 4, 5 / 2] := by funext i; simp only [valuesFrom, exIncr, n, zero_add]
  have hg : g = 23 / 120 := by rw [q1, eT, eY]; decide +kernel
  refine ⟨Z, _, e, hok, g, c, chain, ll, hg, ?_, q3, q5⟩
  have := q2 (by rw [hg]; norm_num)
  rw [hg, eY] at this
  have e0 : exIncr [1 / 2, 7 / 4, 5 / 2] 0 = 1 / 2 := by decide +kernel
  rw [e0] at this
  linarith

end Kinisi
