import Verif.Lemmas.Statistics

/-!
# Weighted sums over disjoint groups of independent steps
-/

set_option linter.unusedSectionVars false

namespace Kinisi
open MeasureTheory ProbabilityTheory Spec

variable {Ω ι κ : Type} [MeasurableSpace Ω] {μ : Measure Ω} [IsProbabilityMeasure μ]

/-- The sum of the steps in `S`, with weights. -/
def weightedMove (c : ι → ℝ) (ξ : ι → Ω → ℝ) (S : Finset ι) (ω : Ω) : ℝ := ∑ k ∈ S, c k * ξ k ω

theorem weightedMove_indep [DecidableEq ι] {ξ : ι → Ω → ℝ} (h : RandomWalk μ ξ) (c : ι → ℝ) {T : κ → Finset ι} (hT : ∀ a b, a ≠ b → Disjoint (T a) (T b)) :
    iIndepFun (fun a => weightedMove c ξ (T a)) μ := by
  classical
  rw [iIndepFun_iff_measure_inter_preimage_eq_mul]
  intro S sets hs
  induction S using Finset.induction_on with
  | empty => simp
  | insert a S ha ih =>
    have ih := ih fun i hi => hs i (Finset.mem_insert_of_mem hi)
    rw [Finset.prod_insert ha, ← ih, Finset.set_biInter_insert]
    set R := S.biUnion T with hR
    have hd : Disjoint (T a) R := by
      rw [hR, Finset.disjoint_biUnion_right]
      exact fun b hb => hT a b fun e => ha (e ▸ hb)
    have ind := h.indep.indepFun_finset (T a) R hd h.meas
    let ext : (R → ℝ) → ι → ℝ := fun f k => if hk : k ∈ R then f ⟨k, hk⟩ else 0
    have hext : ∀ k, Measurable fun f => ext f k := by
      intro k
      by_cases hk : k ∈ R
      · simp only [ext, hk, dif_pos]
        exact measurable_pi_apply _
      · simp only [ext, hk, dif_neg, not_false_eq_true]
        exact measurable_const
    have key := ind.measure_inter_preimage_eq_mul {f : T a → ℝ | ∑ k : T a, c k * f k ∈ sets a} (⋂ b ∈ S, {f : R → ℝ | ∑ k ∈ T b, c k * ext f k ∈ sets b})
      ((Finset.measurable_fun_sum _ fun k _ => (measurable_pi_apply k).const_mul _) (hs a (Finset.mem_insert_self _ _)))
      (Finset.measurableSet_biInter S fun b hb => (Finset.measurable_fun_sum _ fun k _ => (hext k).const_mul _) (hs b (Finset.mem_insert_of_mem hb)))
    have e1 : (fun (ω : Ω) (i : T a) => ξ i ω) ⁻¹' {f : T a → ℝ | ∑ k : T a, c k * f k ∈ sets a} = weightedMove c ξ (T a) ⁻¹' sets a := by
      ext ω
      simp only [Set.mem_preimage, Set.mem_ofPred_eq, weightedMove]
      rw [← Finset.sum_coe_sort (T a) fun k => c k * ξ k ω]
    have e2 : (fun (ω : Ω) (i : R) => ξ i ω) ⁻¹' (⋂ b ∈ S, {f : R → ℝ | ∑ k ∈ T b, c k * ext f k ∈ sets b}) = ⋂ b ∈ S, weightedMove c ξ (T b) ⁻¹' sets b := by
      ext ω
      simp only [Set.mem_preimage, Set.mem_iInter, Set.mem_ofPred_eq]
      refine forall₂_congr fun b hb => ?_
      unfold weightedMove
      rw [Finset.sum_congr rfl fun k hk => by
        show c k * ext (fun i : R => ξ i ω) k = c k * ξ k ω
        simp only [ext]
        rw [dif_pos (show k ∈ R from Finset.mem_biUnion.2 ⟨b, hb, hk⟩)]]
    rw [e1, e2] at key
    exact key

theorem weightedMove_measurable {ξ : ι → Ω → ℝ} (h : RandomWalk μ ξ) (c : ι → ℝ) (S : Finset ι) : Measurable (weightedMove c ξ S) :=
  Finset.measurable_fun_sum _ fun k _ => (h.meas k).const_mul _

theorem weightedMove_memLp {ξ : ι → Ω → ℝ} (h : RandomWalk μ ξ) (c : ι → ℝ) (S : Finset ι) : MemLp (weightedMove c ξ S) 4 μ :=
  memLp_finsetSum _ fun k _ => (h.moment k).const_mul _

theorem weightedMove_mean {ξ : ι → Ω → ℝ} (h : RandomWalk μ ξ) (c : ι → ℝ) (S : Finset ι) : ∫ ω, weightedMove c ξ S ω ∂μ = 0 := by
  unfold weightedMove
  rw [integral_finsetSum _ fun k _ => ((h.moment k).integrable (by norm_num)).const_mul _]
  refine Finset.sum_eq_zero fun k _ => ?_
  rw [integral_const_mul, h.mean, mul_zero]

/-- Second and fourth moments of a weighted sum of normal steps. -/
theorem weightedMove_moments [DecidableEq ι] {ξ : ι → Ω → ℝ} (h : RandomWalk μ ξ) {σ : ℝ} (hs : NormalMoments μ ξ σ) (c : ι → ℝ) (S : Finset ι) :
    ∫ ω, weightedMove c ξ S ω ^ 2 ∂μ = (∑ k ∈ S, c k ^ 2) * σ ^ 2 ∧ ∫ ω, weightedMove c ξ S ω ^ 4 ∂μ = 3 * ((∑ k ∈ S, c k ^ 2) * σ ^ 2) ^ 2 := by
  induction S using Finset.induction_on with
  | empty => simp [weightedMove]
  | insert i S hi ih =>
    have hind : IndepFun (weightedMove c ξ {i}) (weightedMove c ξ S) μ := by
      have := weightedMove_indep h c (T := fun b : Bool => if b then {i} else S) (by
        rintro (_ | _) (_ | _) e
        · exact absurd rfl e
        · simpa using hi
        · simpa using hi
        · exact absurd rfl e)
      simpa using this.indepFun (show true ≠ false by decide)
    have e : ∀ ω, weightedMove c ξ (insert i S) ω = weightedMove c ξ {i} ω + weightedMove c ξ S ω := by
      intro ω
      unfold weightedMove
      rw [Finset.sum_insert hi, Finset.sum_singleton]
    have s2 : ∫ ω, weightedMove c ξ {i} ω ^ 2 ∂μ = c i ^ 2 * σ ^ 2 := by
      simp only [weightedMove, Finset.sum_singleton, mul_pow]
      rw [integral_const_mul, hs.second]
    have s4 : ∫ ω, weightedMove c ξ {i} ω ^ 4 ∂μ = c i ^ 4 * (3 * σ ^ 4) := by
      simp only [weightedMove, Finset.sum_singleton, mul_pow]
      rw [integral_const_mul, hs.fourth]
    simp only [e]
    rw [second_add (weightedMove_measurable h c _) (weightedMove_measurable h c _) (weightedMove_memLp h c _) (weightedMove_memLp h c _) hind (weightedMove_mean h c _),
      fourth_add (weightedMove_measurable h c _) (weightedMove_measurable h c _) (weightedMove_memLp h c _) (weightedMove_memLp h c _) hind (weightedMove_mean h c _)
        (weightedMove_mean h c _), ih.1, ih.2, s2, s4, Finset.sum_insert hi]
    exact ⟨by ring, by ring⟩

/-- Weighted sums over disjoint groups with the same sum of squared weights are again a normal random walk. -/
theorem weightedMove_walk [DecidableEq ι] {ξ : ι → Ω → ℝ} (h : RandomWalk μ ξ) {σ : ℝ} (hs : NormalMoments μ ξ σ) (c : ι → ℝ) {T : κ → Finset ι} (hT : ∀ a b, a ≠ b → Disjoint (T a) (T b))
    {Q : ℝ} (hQ : ∀ a, ∑ k ∈ T a, c k ^ 2 = Q) (hQ0 : 0 ≤ Q) : RandomWalk μ (fun a => weightedMove c ξ (T a)) ∧ NormalMoments μ (fun a => weightedMove c ξ (T a)) (Real.sqrt Q * σ) := by
  have e : (Real.sqrt Q * σ) ^ 2 = Q * σ ^ 2 := by rw [mul_pow, Real.sq_sqrt hQ0]
  refine ⟨⟨weightedMove_indep h c hT, fun a => weightedMove_measurable h c _, fun a => weightedMove_memLp h c _, fun a => weightedMove_mean h c _⟩, fun a => ?_, fun a => ?_⟩
  · rw [(weightedMove_moments h hs c _).1, hQ, e]
  · rw [(weightedMove_moments h hs c _).2, hQ, show (Real.sqrt Q * σ) ^ 4 = ((Real.sqrt Q * σ) ^ 2) ^ 2 by ring, e]

end Kinisi
