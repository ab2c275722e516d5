import Verif.Props.RandomWalk
import Verif.Props.Offset

/-!
# C127: the expected value of the fitted gradient for a random walk
-/

set_option linter.unusedSectionVars false
set_option linter.unusedVariables false

open MeasureTheory

namespace Kinisi
open Spec
variable {Ω G : Type} [MeasurableSpace Ω]

/-- The expected value of the gradient of highest likelihood.  The analyses `Z ω` have the same time axis, multiples of `δ`.  The fit uses the intervals from the `k`-th on, with weights `P` that do not depend on
chance.  Then the gradient is a linear estimate that is unbiased for straight lines, and its expected value is the true `rate / δ` less the estimate for the curve `rate / (F - τ + 1)`. -/
def ExpectedGradient (μ : Measure Ω) (F : ℕ) (nSteps : ℤ) (N : ℕ) (δ rate : ℝ) (Z : Ω → Analyzer ℝ) : Prop :=
  ∃ taus : List ℕ, taus.Pairwise (· < ·) ∧ (∀ τ ∈ taus, 1 ≤ τ ∧ τ ≤ F) ∧ ((F : ℤ) ≤ nSteps → taus = (List.range F).map fun i => i + 1) ∧
    (∀ ω, (Z ω).diff.dt = (resolved N F taus).map fun τ : ℕ => (τ : ℝ) * δ) ∧
    ∀ (k m : ℕ) (tau : Fin m → ℕ) (t : Fin m → ℝ) (logdet : ℝ) (S P : Matrix (Fin m) (Fin m) ℝ), k + m = (resolved N F taus).length →
      (∀ i : Fin m, (resolved N F taus)[k + i]? = some (tau i)) → (∀ i, t i = tau i * δ) → (∀ i j, S i j = S j i) → (∀ i j, P i j = P j i) → S * P = 1 → PD P →
      ((∃ i j, t i ≠ t j) → ∃ w : Fin m → ℝ, UnbiasedLine t w ∧ ∀ g c best : Ω → ℝ,
        (∀ ω, 0 < g ω ∧ BestLine (logLikelihood logdet P t fun i => ((Z ω).diff.n)[k + i]?.getD 0) (g ω) (c ω) (best ω)) →
        Integrable g μ ∧ ∫ ω, g ω ∂μ = rate / δ - estimate w fun i => rate / ((F - tau i + 1 : ℕ) : ℝ)) ∧
      ((∃ i, t i ≠ 0) → ∃ w : Fin m → ℝ, UnbiasedRay t w ∧ ∀ g best : Ω → ℝ,
        (∀ ω, 0 < g ω ∧ BestRay (logLikelihood logdet P t fun i => ((Z ω).diff.n)[k + i]?.getD 0) (g ω) (best ω)) →
        Integrable g μ ∧ ∫ ω, g ω ∂μ = rate / δ - estimate w fun i => rate / ((F - tau i + 1 : ℕ) : ℝ))

theorem estimate_mean {μ : Measure Ω} {m : ℕ} (w : Fin m → ℝ) (y : Fin m → Ω → ℝ) (e : Fin m → ℝ) (h : ∀ i, Integrable (y i) μ ∧ ∫ ω, y i ω ∂μ = e i) :
    Integrable (fun ω => estimate w fun i => y i ω) μ ∧ ∫ ω, estimate w (fun i => y i ω) ∂μ = estimate w e := by
  unfold estimate
  constructor
  · exact integrable_finsetSum _ fun i _ => (h i).1.const_mul _
  · rw [integral_finsetSum _ fun i _ => (h i).1.const_mul _]
    refine Finset.sum_congr rfl fun i _ => ?_
    rw [integral_const_mul, (h i).2]

theorem estimate_sub {m : ℕ} (w x y : Fin m → ℝ) : estimate w (fun i => x i - y i) = estimate w x - estimate w y := by
  unfold estimate
  rw [← Finset.sum_sub_distrib]
  exact Finset.sum_congr rfl fun i _ => by ring

theorem gradient_of_curve {μ : Measure Ω} {F : ℕ} {nSteps : ℤ} {N : ℕ} {δ rate : ℝ} {Z : Ω → Analyzer ℝ} {t' : ℕ → ℝ} {mean : ℕ → ℝ} (hδ : δ ≠ 0) (ht' : ∀ τ, t' τ = (τ : ℝ) * δ)
    (hmean : ∀ τ, mean τ = rate * (τ - 1 / ((F - τ + 1 : ℕ) : ℝ))) (h : ExpectedCurve μ F nSteps N t' mean Z) :
    ExpectedGradient μ F nSteps N δ rate Z := by
  obtain ⟨taus, h1, h2, h3, h4, h5, h6⟩ := h
  obtain rfl : t' = fun τ : ℕ => (τ : ℝ) * δ := funext ht'
  refine ⟨taus, h1, h2, h3, h4, fun k m tau t logdet S P hk htau ht hS hs hSP hP => ?_⟩
  have he : ∀ i : Fin m, Integrable (fun ω => ((Z ω).diff.n)[k + i]?.getD 0) μ ∧
      ∫ ω, ((Z ω).diff.n)[k + i]?.getD 0 ∂μ = rate / δ * t i - rate / ((F - tau i + 1 : ℕ) : ℝ) := by
    intro i
    obtain ⟨a, b⟩ := h6 (k + i) (tau i) (htau i)
    refine ⟨a, ?_⟩
    rw [b, hmean, ht]
    field_simp
  constructor
  · intro hne
    obtain ⟨w, u1, -, -, u2⟩ := C89_efficient logdet S P hS hs hSP hP t hne
    refine ⟨w, u1, fun g c best hg => ?_⟩
    have hgw : g = fun ω => estimate w fun i => ((Z ω).diff.n)[k + i]?.getD 0 := by
      funext ω
      exact (u2 _ _ _ _ (hg ω).1 (hg ω).2).1
    obtain ⟨a, b⟩ := estimate_mean w _ _ he
    rw [hgw]
    refine ⟨a, ?_⟩
    rw [b, estimate_sub]
    congr 1
    have := u1 (rate / δ) 0
    simpa using this
  · intro hne
    obtain ⟨w, u1, -, -, u2⟩ := C89_efficient_no_intercept logdet S P hS hs hSP hP t hne
    refine ⟨w, u1, fun g best hg => ?_⟩
    have hgw : g = fun ω => estimate w fun i => ((Z ω).diff.n)[k + i]?.getD 0 := by
      funext ω
      exact (u2 _ _ _ (hg ω).1 (hg ω).2).1
    obtain ⟨a, b⟩ := estimate_mean w _ _ he
    rw [hgw]
    refine ⟨a, ?_⟩
    rw [b, estimate_sub]
    congr 1
    exact u1 (rate / δ)

/-- **C127, what holds (ASE).** The atoms make uncorrelated steps of mean square `v` per axis.  With weights that do not depend on chance the expected value of the fitted gradient is the true one less the estimate for
`rate / (F - τ + 1)`, where `rate` is the mean squared displacement per frame.  Missing: it should be the true one. -/
theorem C127_ase_partial (μ : Measure Ω) [IsProbabilityMeasure μ] (E : Num ℝ) (P : Params ℝ) (S : Select ℝ) (sy : List String)
    (atoms fw : List ℕ) (hS : Picks S sy atoms fw) (hP : DefaultGrid E P) (F : ℕ) (hF : 2 ≤ F) (L : M3 ℝ) (V : ℝ)
    (u : Ω → ℕ → ℕ → V3 ℝ) (m : Ω → ℕ → ℕ → Fin 3 → ℤ)
    (hstep : ∀ ω, ∀ i < sy.length, ∀ j, j + 1 < F → HalfCell fun k => u ω i (j + 1) k - u ω i j k)
    (v : ℝ) (hw : UncorrelatedSteps μ (walkStep L u fw) atoms (F - 1) v)
    (sq : ℝ → ℝ) (o : Oracle ℝ G) (U : UncParams ℝ) (hblock : U.opt.block = false) (hsub : U.sub = 1) (g g' : Ω → G) (Z : Ω → Analyzer ℝ)
    (hδ : P.stepSkip.val * P.timeStep.val ≠ 0)
    (h : ∀ ω, diffusionAnalyzer sq o (g ω) U (fromAse E P S 1 none (.one (wrapped F sy L V (u ω) (m ω)))) = .ok (Z ω, g' ω)) :
    ExpectedGradient μ F P.nSteps atoms.length (P.stepSkip.val * P.timeStep.val) ((axesOf U.dimension).card * v) Z :=
  gradient_of_curve hδ (fun τ => by ring) (fun τ => rfl) (C93_ase_partial μ E P S sy atoms fw hS hP F hF L V u m hstep v hw sq o U hblock hsub g g' Z h)

/-- **C127, what holds (pymatgen; times in picoseconds).** -/
theorem C127_pymatgen_partial (μ : Measure Ω) [IsProbabilityMeasure μ] (E : Num ℝ) (P : Params ℝ) (S : Select ℝ) (sy : List String)
    (atoms fw : List ℕ) (hS : Picks S sy atoms fw) (hP : DefaultGrid E P) (F : ℕ) (hF : 2 ≤ F) (L : M3 ℝ) (V : ℝ)
    (u : Ω → ℕ → ℕ → V3 ℝ) (m : Ω → ℕ → ℕ → Fin 3 → ℤ)
    (hstep : ∀ ω, ∀ i < sy.length, ∀ j, j + 1 < F → HalfCell fun k => u ω i (j + 1) k - u ω i j k)
    (v : ℝ) (hw : UncorrelatedSteps μ (walkStep L u fw) atoms (F - 1) v)
    (sq : ℝ → ℝ) (o : Oracle ℝ G) (U : UncParams ℝ) (hblock : U.opt.block = false) (hsub : U.sub = 1) (g g' : Ω → G) (Z : Ω → Analyzer ℝ)
    (hδ : P.stepSkip.val * P.timeStep.val ≠ 0)
    (h : ∀ ω, diffusionAnalyzer sq o (g ω) U (fromPymatgen E P S 1 none (.one (wrapped F sy L V (u ω) (m ω)))) = .ok (Z ω, g' ω)) :
    ExpectedGradient μ F P.nSteps atoms.length (P.stepSkip.val * P.timeStep.val / 1000) ((axesOf U.dimension).card * v) Z :=
  gradient_of_curve (div_ne_zero hδ (by norm_num)) (fun τ => by ring) (fun τ => rfl)
    (C93_pymatgen_partial μ E P S sy atoms fw hS hP F hF L V u m hstep v hw sq o U hblock hsub g g' Z h)

/-- **C127, what holds (MDAnalysis).** -/
theorem C127_mda_partial (μ : Measure Ω) [IsProbabilityMeasure μ] (E : Num ℝ) (P : Params ℝ) (S : Select ℝ) (sy : List String)
    (atoms fw : List ℕ) (hS : Picks S sy atoms fw) (hP : DefaultGrid E P) (F : ℕ) (hF : 2 ≤ F) (L : M3 ℝ) (V : ℝ)
    (u : Ω → ℕ → ℕ → V3 ℝ) (m : Ω → ℕ → ℕ → Fin 3 → ℤ)
    (hstep : ∀ ω, ∀ i < sy.length, ∀ j, j + 1 < F → HalfCell fun k => u ω i (j + 1) k - u ω i j k)
    (v : ℝ) (hw : UncorrelatedSteps μ (walkStep L u fw) atoms (F - 1) v)
    (sq : ℝ → ℝ) (o : Oracle ℝ G) (U : UncParams ℝ) (hblock : U.opt.block = false) (hsub : U.sub = 1) (g g' : Ω → G) (Z : Ω → Analyzer ℝ)
    (hδ : P.stepSkip.val * P.timeStep.val ≠ 0)
    (h : ∀ ω, diffusionAnalyzer sq o (g ω) U (fromUniverse E P S 1 1 none (.one (wrappedMda F sy L V (u ω) (m ω)))) = .ok (Z ω, g' ω)) :
    ExpectedGradient μ F P.nSteps atoms.length (P.stepSkip.val * P.timeStep.val) ((axesOf U.dimension).card * v) Z :=
  gradient_of_curve hδ (fun τ => by ring) (fun τ => rfl) (C93_mda_partial μ E P S sy atoms fw hS hP F hF L V u m hstep v hw sq o U hblock hsub g g' Z h)

/-- The curve of the walk of `C93_violated`: one interval, with the value 1/8 for every outcome. -/
theorem exWalk_curve (ω : Bool × Bool) {Z : Analyzer ℝ} (h : diffusionAnalyzer id (exOracle ℝ) () exUncR (fromAse exNumR exParamsR exSelectR 1 none
    (.one (wrapped 3 ["Li", "O"] exCube 1 (exWalk ω) fun _ _ _ => 0))) = .ok (Z, ())) : Z.diff.dt = [2] ∧ Z.diff.n = [1 / 8] := by
  have hax : axesOf exUncR.dimension = Finset.univ := by decide +kernel
  obtain ⟨taus, -, -, h3, -, h5, h6⟩ := C70_ase exNumR exParamsR exSelectR ["Li", "O"] [0] [1] (.species ["Li"] rfl rfl) exGridR 3 (by norm_num) exCube 1 (exWalk ω) (fun _ _ _ => 0)
    (fun i _ j hj => exWalk_half ω i j hj) id (exOracle ℝ) exUncR rfl rfl () () Z h
  have hr : resolved 1 3 taus = [1] := by rw [h3 (by simp [exParamsR])]; decide
  have h5 : Z.diff.n = (resolved 1 3 taus).map _ := h5
  have h6 : Z.diff.dt = (resolved 1 3 taus).map _ := h6
  rw [hr] at h5 h6
  constructor
  · rw [h6]
    simp [exParamsR, PyNum.val]
  · rw [h5, hax]
    have hc : ∀ (s : V3 ℝ) l, cart exCube s l = s l := by
      intro s l
      unfold cart exCube
      simp
    obtain ⟨a, b⟩ := ω
    simp only [List.map_cons, List.map_nil, reportedMsd, lengthSq, trueMove, meanOver, hc, exWalk, List.sum_cons, List.sum_nil, Finset.sum_range_succ, Finset.sum_range_zero]
    cases a <;> cases b <;> simp [exSign, Fin.sum_univ_three] <;> norm_num

/-- The weights of one interval. -/
theorem exOne_ray (P : Matrix (Fin 1) (Fin 1) ℝ) (hP : PD P) (logdet : ℝ) :
    BestRay (logLikelihood logdet P (fun _ => 2) fun _ => 1 / 8) (1 / 16) (-(1 / 2) * logdet) ∧
    ∀ g best, BestRay (logLikelihood logdet P (fun _ => 2) fun _ => 1 / 8) g best → g = 1 / 16 := by
  have hp : 0 < P 0 0 := by
    have := hP (fun _ => 1) (by intro h0; simpa using congrFun h0 0)
    simpa using this
  have hval : ∀ g : ℝ, 0 ≤ g → logLikelihood logdet P (fun _ => 2) (fun _ => 1 / 8) [g] = some (-(1 / 2) * (logdet + P 0 0 * (g * 2 - 1 / 8) ^ 2)) := by
    intro g hg
    unfold logLikelihood
    rw [if_neg (by simpa using hg)]
    simp [straightLine, dotProduct, Matrix.mulVec]
    ring
  refine ⟨⟨?_, fun g l hl => ?_⟩, fun g best hb => ?_⟩
  · rw [hval _ (by norm_num)]
    norm_num
  · by_cases hg : 0 ≤ g
    · rw [hval g hg, Option.some.injEq] at hl
      rw [← hl]
      nlinarith [mul_nonneg hp.le (sq_nonneg (g * 2 - 1 / 8))]
    · unfold logLikelihood at hl
      rw [if_pos (by simpa using hg)] at hl
      cases hl
  · obtain ⟨h1, h2⟩ := hb
    by_cases hg : 0 ≤ g
    · rw [hval g hg, Option.some.injEq] at h1
      have := h2 (1 / 16) _ (hval (1 / 16) (by norm_num))
      rw [← h1] at this
      have h0 : P 0 0 * (g * 2 - 1 / 8) ^ 2 ≤ 0 := by nlinarith
      have h3 : (g * 2 - 1 / 8) ^ 2 = 0 := by
        by_contra hne
        have : 0 < (g * 2 - 1 / 8) ^ 2 := lt_of_le_of_ne (sq_nonneg _) (Ne.symm hne)
        nlinarith [mul_pos hp this]
      have := pow_eq_zero_iff (n := 2) (by norm_num) |>.mp h3
      linarith
    · unfold logLikelihood at h1
      rw [if_pos (by simpa using hg)] at h1
      cases h1

/-- **C127, violated.** Atom 0 makes two independent steps of `±1/4` along each axis, 2 time units apart: the mean squared displacement grows by 3/16 per step, its gradient is 3/32.  The ray of highest likelihood has the gradient
1/16 for every outcome and whatever the weights: D is too small by a third. -/
theorem C127_violated :
    UncorrelatedSteps exCoins (walkStep exCube exWalk [1]) [0] 2 (1 / 16) ∧
    (∀ j < 2, ∫ ω, lengthSq Finset.univ (trueMove exCube (exWalk ω) [1] 0 j (j + 1)) ∂exCoins = 3 / 16) ∧
    ∃ Z : Bool × Bool → Analyzer ℝ,
      (∀ ω, diffusionAnalyzer id (exOracle ℝ) () exUncR (fromAse exNumR exParamsR exSelectR 1 none
        (.one (wrapped 3 ["Li", "O"] exCube 1 (exWalk ω) fun _ _ _ => 0))) = .ok (Z ω, ())) ∧
      (∀ ω, (Z ω).diff.dt = [2]) ∧
      ∀ (logdet : ℝ) (P : Matrix (Fin 1) (Fin 1) ℝ), PD P →
        (∀ ω, ∃ g best, BestRay (logLikelihood logdet P (fun i => ((Z ω).diff.dt)[(i : ℕ)]?.getD 0) fun i => ((Z ω).diff.n)[(i : ℕ)]?.getD 0) g best) ∧
        ∀ g best : Bool × Bool → ℝ,
          (∀ ω, BestRay (logLikelihood logdet P (fun i => ((Z ω).diff.dt)[(i : ℕ)]?.getD 0) fun i => ((Z ω).diff.n)[(i : ℕ)]?.getD 0) (g ω) (best ω)) →
          ∫ ω, g ω ∂exCoins = 2 / 3 * (3 / 16 / 2) := by
  choose Z hZ using exWalk_ok
  refine ⟨exUncorrelated, C93_violated.2.1, Z, hZ, fun ω => (exWalk_curve ω (hZ ω)).1, fun logdet P hP => ?_⟩
  have ht : ∀ ω, (fun i : Fin 1 => ((Z ω).diff.dt)[(i : ℕ)]?.getD 0) = fun _ => 2 := by
    intro ω
    funext i
    rw [(exWalk_curve ω (hZ ω)).1]
    fin_cases i
    rfl
  have hy : ∀ ω, (fun i : Fin 1 => ((Z ω).diff.n)[(i : ℕ)]?.getD 0) = fun _ => 1 / 8 := by
    intro ω
    funext i
    rw [(exWalk_curve ω (hZ ω)).2]
    fin_cases i
    rfl
  obtain ⟨r1, r2⟩ := exOne_ray P hP logdet
  refine ⟨fun ω => ⟨1 / 16, _, by rw [ht, hy]; exact r1⟩, fun g best hg => ?_⟩
  have : g = fun _ => 1 / 16 := by
    funext ω
    have := hg ω
    rw [ht, hy] at this
    exact r2 _ _ this
  rw [this, exCoins_integral]
  norm_num

/-- The same value from `C127_ase_partial`: `3/16 / 2` less the estimate for `(3/16) / 3`, which is a half of it. -/
example : ∃ Z : Bool × Bool → Analyzer ℝ, (∀ ω, diffusionAnalyzer id (exOracle ℝ) () exUncR (fromAse exNumR exParamsR exSelectR 1 none
      (.one (wrapped 3 ["Li", "O"] exCube 1 (exWalk ω) fun _ _ _ => 0))) = .ok (Z ω, ())) ∧
    ExpectedGradient exCoins 3 exParamsR.nSteps 1 (exParamsR.stepSkip.val * exParamsR.timeStep.val) ((axesOf exUncR.dimension).card * (1 / 16)) Z ∧
    (3 / 16 / 2 - 1 / 2 * (3 / 16 / 3) : ℝ) = 1 / 16 := by
  choose Z hZ using exWalk_ok
  exact ⟨Z, hZ, C127_ase_partial exCoins exNumR exParamsR exSelectR ["Li", "O"] [0] [1] (.species ["Li"] rfl rfl) exGridR 3 (by norm_num)
    exCube 1 exWalk (fun _ _ _ _ => 0) (fun ω i _ j hj => exWalk_half ω i j hj) (1 / 16) exUncorrelated id (exOracle ℝ) exUncR rfl rfl
    (fun _ => ()) (fun _ => ()) Z (by simp [exParamsR, PyNum.val]) hZ, by norm_num⟩

end Kinisi
