import Verif.Props.LongTotal

/-!
# C144: fits of the collective curves with an intercept
-/

set_option linter.unusedSectionVars false
set_option linter.unusedVariables false

namespace Kinisi
open MeasureTheory ProbabilityTheory Spec
variable {G : Type} {Ω : Type} [MeasurableSpace Ω] {μ : Measure Ω} [IsProbabilityMeasure μ]

/-- If every value is within `η` of the line `s τ`, so is the gradient of the fit within `(1 + 2 M) η / (m δ)` of its gradient. -/
theorem line_off {b : Boot ℝ} {r : ℕ} {D c : ℝ} (hD : FittedLine b r D c) {κ : ℝ} (hκ : ∀ (k : ℕ) (t N : ℝ), b.dt[k]? = some t → b.nO[k]? = some N → N * t = κ) {ρ : List ℕ} {f : ℕ → ℝ} {m M : ℕ}
    (hm1 : 1 ≤ m) (hmM : m ≤ M) (hρ : ∀ τ ∈ ρ, m ≤ τ ∧ τ ≤ M) {δ : ℝ} (hδ0 : 0 < δ) (hn : b.n = ρ.map f) (hd : b.dt = ρ.map fun τ : ℕ => (τ : ℝ) * δ) {s : ℝ} (hs : 0 ≤ s) {η : ℝ}
    (hη : ∀ τ ∈ Finset.Icc m M, |f τ - s * τ| < η) : |D - s / δ| < (1 + 2 * M) * η / (m * δ) := by
  have hm0 : (0 : ℝ) < m := by exact_mod_cast hm1
  have hne : (Finset.Icc m M).Nonempty := ⟨m, Finset.mem_Icc.2 ⟨le_rfl, hmM⟩⟩
  set R : ℝ := (Finset.Icc m M).sup' hne fun τ => |f τ - s * τ| with hR
  have hRη : R < η := (Finset.sup'_lt_iff hne).2 fun τ hτ => hη τ hτ
  have hRle : ∀ τ ∈ Finset.Icc m M, |f τ - s * τ| ≤ R := fun τ hτ => Finset.le_sup' (fun τ : ℕ => |f τ - s * τ|) hτ
  have hR0 : 0 ≤ R := (abs_nonneg _).trans (hRle m (Finset.mem_Icc.2 ⟨le_rfl, hmM⟩))
  have hmem : ∀ (i τ : ℕ), ρ[i]? = some τ → τ ∈ Finset.Icc m M := fun i τ hi => Finset.mem_Icc.2 (hρ τ (List.mem_of_getElem? hi))
  have hdt : ∀ (i : ℕ) (t : ℝ), b.dt[i]? = some t → ∃ τ : ℕ, ρ[i]? = some τ ∧ t = τ * δ := by
    intro i t hi
    rw [hd, List.getElem?_map] at hi
    obtain ⟨τ, h1, rfl⟩ := Option.map_eq_some_iff.1 hi
    exact ⟨τ, h1, rfl⟩
  have hlen : b.dt.length = b.n.length := by rw [hd, hn, List.length_map, List.length_map]
  obtain ⟨t₀, h0⟩ : ∃ t₀, b.dt[r]? = some t₀ := by
    obtain ⟨w, k, W, ld, best, hl, hk, -⟩ := hD
    exact ⟨_, List.getElem?_eq_getElem (by omega)⟩
  obtain ⟨τ₀, hτ0, ht0⟩ := hdt r t₀ h0
  have hτm := Finset.mem_Icc.1 (hmem _ _ hτ0)
  have key : |D - s / δ| ≤ (1 + 2 * M) * R / t₀ := by
    refine fit_line_error hD hlen κ hκ ?_ (s / δ) 0 R (2 * M) (by positivity) ?_ ?_ h0
    · intro t ht'
      obtain ⟨i, hi⟩ := List.mem_iff_getElem?.1 ht'
      obtain ⟨τ, h1, rfl⟩ := hdt i t hi
      have : (0 : ℝ) < τ := by exact_mod_cast lt_of_lt_of_le hm1 (Finset.mem_Icc.1 (hmem i τ h1)).1
      positivity
    · intro i t y _ h1 h2
      obtain ⟨τ, h3, rfl⟩ := hdt i t h1
      rw [hn, List.getElem?_map, h3] at h2
      obtain rfl := Option.some.inj h2
      have e : s / δ * (τ * δ) + 0 = s * τ := by field_simp; ring
      rw [e]
      exact hRle τ (hmem i τ h3)
    · intro i t t' _ h1 h2 hne'
      obtain ⟨τ, h3, rfl⟩ := hdt i t h1
      obtain ⟨τ', h4, rfl⟩ := hdt (i + 1) t' h2
      have hb1 : (τ : ℝ) ≤ M := by exact_mod_cast (Finset.mem_Icc.1 (hmem i τ h3)).2
      have hb2 : (τ' : ℝ) ≤ M := by exact_mod_cast (Finset.mem_Icc.1 (hmem _ τ' h4)).2
      have hgap : (1 : ℝ) ≤ |(τ' : ℝ) - τ| := by
        have : τ' ≠ τ := fun e => hne' (by rw [e])
        have h5 : (1 : ℤ) ≤ |(τ' : ℤ) - τ| := Int.one_le_abs (sub_ne_zero.2 (by exact_mod_cast this))
        exact_mod_cast h5
      rw [← sub_mul, abs_mul, abs_of_pos hδ0]
      have hM0 : (0 : ℝ) ≤ M := Nat.cast_nonneg M
      nlinarith [mul_le_mul_of_nonneg_left hgap (by positivity : (0 : ℝ) ≤ 2 * M * δ)]
  have hm0' : (m : ℝ) ≤ τ₀ := by exact_mod_cast hτm.1
  refine key.trans_lt ?_
  rw [ht0]
  have h3 : (m : ℝ) * δ ≤ τ₀ * δ := mul_le_mul_of_nonneg_right hm0' hδ0.le
  have h4 : 0 < (m : ℝ) * δ := mul_pos hm0 hδ0
  have h5 : (1 + 2 * (M : ℝ)) * R < (1 + 2 * M) * η := mul_lt_mul_of_pos_left hRη (by positivity)
  calc (1 + 2 * (M : ℝ)) * R / (τ₀ * δ) ≤ (1 + 2 * M) * R / (m * δ) := div_le_div_of_nonneg_left (by positivity) h4 h3
    _ < (1 + 2 * M) * η / (m * δ) := div_lt_div_of_pos_right h5 h4

/-- The chance that a value of a collective curve is off. -/
theorem total_off {Ξ : ℕ × Fin 3 → Ω → ℝ} (h : RandomWalk μ Ξ) {v C : ℝ} (hC : 0 ≤ C) (hs : StepMoments μ Ξ v C) {L : M3 ℝ} {u : Ω → ℕ → ℕ → V3 ℝ} {fw atoms : List ℕ} {q : ℕ → ℝ}
    (hΞ : ∀ j l ω, totalMove L (u ω) fw atoms q j (j + 1) l = Ξ (j, l) ω) (A : Finset (Fin 3)) {F τ : ℕ} (h1 : 1 ≤ τ) (h2 : τ ≤ F) {η : ℝ} (hη : 0 < η) :
    μ.real {ω | η ≤ |reportedTotal A L (u ω) fw atoms q F τ - A.card * v * τ|} ≤ mseBound A v C 1 τ F / η ^ 2 := by
  obtain ⟨k2, k3⟩ := reportedTotal_mse h hC hs hΞ A h1 h2
  have hi := (k2.sub (memLp_const (A.card * v * τ : ℝ))).integrable_sq
  have cheb := mul_meas_ge_le_integral_of_nonneg (μ := μ) (Filter.Eventually.of_forall fun ω => sq_nonneg _) hi (η ^ 2)
  rw [le_div_iff₀ (by positivity), mul_comm]
  refine le_trans (mul_le_mul_of_nonneg_left (measureReal_mono (fun ω hω => ?_)) (by positivity)) (cheb.trans k3)
  show η ^ 2 ≤ (reportedTotal A L (u ω) fw atoms q F τ - A.card * v * τ) ^ 2
  rw [← sq_abs (_ - _)]
  exact pow_le_pow_left₀ hη.le hω 2

/-- **C144, error bound with an intercept.** The default fit of the MSTD or MSCD, for intervals from `m` to `M` frames that the user has chosen, distinct, of any spacing, any start of the fit, also in cells that
change: the probability that the gradient is off by `ε` or more is at most the sum of the bounds of `C144_mstd_error` over the intervals, divided by `(ε m δ / (1 + 2 M))²`. -/
theorem C144_line_error (μ : Measure Ω) [IsProbabilityMeasure μ] (E : Num ℝ) (P : Params ℝ) (S : Select ℝ) (sy : List String) (atoms fw : List ℕ) (hS : Picks S sy atoms fw)
    (F m M : ℕ) (hF : 2 ≤ F) (hM : M ≤ F) (hG : UserGrid E P F m M) (hdis : P.spacing = "logarithmic" ∨ P.nSteps ≤ (M : ℤ) - m + 1) (C : Ω → ℕ → M3 ℝ) (V : Ω → ℕ → ℝ) (s x : Ω → ℕ → ℕ → V3 ℝ)
    (hst : ∀ ω, StoredIn F sy.length (C ω) (s ω) (x ω)) (q : ℕ → ℝ) (A : Finset (Fin 3)) (Ξ : ℕ × Fin 3 → Ω → ℝ) (h : RandomWalk μ Ξ) (v C₄ : ℝ) (hC : 0 ≤ C₄) (hs : StepMoments μ Ξ v C₄)
    (hΞ : ∀ j l ω, totalMove unitCell (x ω) fw atoms q j (j + 1) l = Ξ (j, l) ω) (sq : ℝ → ℝ) (o : Oracle ℝ G) (U : UncParams ℝ) (hblock : U.opt.block = false) (hsub : U.sub = 1) (base : Ω → PyM (Base ℝ)) (unit : ℝ)
    (hbase : ∀ ω, ReadFrames E P S (cellFrames F sy (C ω) (V ω) (s ω)) (cellUniverse F sy (C ω) (V ω) (s ω)) (base ω) unit) (g g' : Ω → G) (Z : Ω → Analyzer ℝ)
    (hZ : ∀ ω, Collective U atoms.length sq o (g ω) (g' ω) (base ω) (Z ω) q A) (r : ℕ) (δ : ℝ) (hδ : δ = P.stepSkip.val * P.timeStep.val / unit) (ε : ℝ) (hε : 0 < ε) :
    μ.real {ω | ∃ D c, FittedLine (Z ω).diff r D c ∧ ε ≤ |D - A.card * v / δ|} ≤ ∑ τ ∈ Finset.Icc m M, mseBound A v C₄ 1 τ F / (ε * m * δ / (1 + 2 * M)) ^ 2 := by
  have hΩ : Nonempty Ω := μ.nonempty_of_neZero
  have hu : 0 < unit := by rcases hbase hΩ.some with ⟨-, rfl⟩ | ⟨-, rfl⟩ | ⟨-, rfl⟩ <;> norm_num
  have hδ0 : 0 < δ := by rw [hδ]; exact div_pos hG.pos hu
  have hm1 : 1 ≤ m := by have := hG.first; omega
  have hm0 : (0 : ℝ) < m := by exact_mod_cast hm1
  have hv0 : 0 ≤ v := by rw [← hs.second (0, 0)]; exact integral_nonneg fun ω => sq_nonneg _
  set η : ℝ := ε * m * δ / (1 + 2 * M) with hη
  have hη0 : 0 < η := by positivity
  refine le_trans (measureReal_mono (s₂ := ⋃ τ ∈ Finset.Icc m M, {ω | η ≤ |reportedTotal A unitCell (x ω) fw atoms q F τ - A.card * v * τ|}) (fun ω hω => ?_) (measure_ne_top _ _))
    ((measureReal_biUnion_finset_le _ _).trans (Finset.sum_le_sum fun τ hτ => ?_))
  · obtain ⟨D, c, hD, hoff⟩ := hω
    by_contra hall
    simp only [Set.mem_iUnion, Set.mem_ofPred_eq, not_exists, not_le] at hall
    obtain ⟨B, hB, hZd⟩ : ∃ B, base ω = .ok B ∧ (Z ω).toBase = B := by
      cases hZ ω with
      | total h => obtain ⟨B, a, b, -⟩ := jump_inv h; exact ⟨B, a, b⟩
      | charge c _ h => obtain ⟨B, a, b, -⟩ := conductivity_inv h; exact ⟨B, a, b⟩
    obtain ⟨taus, ha, hlt, ht⟩ := grid_base hS hF hG (hst ω) (hbase ω) hB
    obtain ⟨hn, hd⟩ : (Z ω).diff.n = ((resolved atoms.length F taus).take ((resolved atoms.length F taus).length / 2)).map (reportedTotal A unitCell (x ω) fw atoms q F) ∧
        (Z ω).diff.dt = ((resolved atoms.length F taus).take ((resolved atoms.length F taus).length / 2)).map fun τ : ℕ => (τ : ℝ) * P.stepSkip.val * P.timeStep.val / unit := by
      cases hZ ω with
      | total h =>
        obtain ⟨B', a, -, hm⟩ := jump_inv h
        obtain rfl := Except.ok.inj (hB.symm.trans a)
        exact mstd_of_parsed (trueBase_of_path ht (hlt hdis)) hblock hsub hm
      | charge c hc h =>
        obtain ⟨B', a, -, hm⟩ := conductivity_inv h
        obtain rfl := Except.ok.inj (hB.symm.trans a)
        exact mscd_of_parsed (trueBase_of_path ht (hlt hdis)) hc hblock hsub hm
    obtain ⟨κ, hκ⟩ : ∃ κ : ℝ, ∀ (k : ℕ) (t N : ℝ), (Z ω).diff.dt[k]? = some t → (Z ω).diff.nO[k]? = some N → N * t = κ := by
      cases hZ ω with
      | total h => exact path_constant hG.fl hG.sampling hG.pos (charge := .scalar 1) (hbase ω) hsub (.inr (.inl h)) (fun τ hτ => (ht.range τ hτ).1) ha.sorted (by rw [hZd]; exact ht.deltaT)
      | charge c hc h => exact path_constant hG.fl hG.sampling hG.pos (charge := c) (hbase ω) hsub (.inr (.inr h)) (fun τ hτ => (ht.range τ hτ).1) ha.sorted (by rw [hZd]; exact ht.deltaT)
    have := line_off hD hκ hm1 hG.ordered (fun τ hτ => by
      have := ha.range τ (List.mem_filter.mp (List.mem_of_mem_take hτ)).1
      exact ⟨this.1, this.2.1⟩) hδ0 hn (hd.trans (List.map_congr_left fun τ _ => by rw [hδ]; ring)) (s := A.card * v) (by positivity) (fun τ hτ => hall τ hτ)
    have e : (1 + 2 * (M : ℝ)) * η / (m * δ) = ε := by rw [hη]; field_simp
    rw [e] at this
    exact absurd hoff (not_le.2 this)
  · obtain ⟨h3, h4⟩ := Finset.mem_Icc.1 hτ
    exact total_off h hC hs hΞ A (by omega) (by omega) hη0

/-- **C144, limit with an intercept.** One motion is analysed from its first `F` frames, for every `F`, with the same intervals and the default fit.  The probability that the gradient of the MSTD or MSCD is off by
`ε` or more tends to zero. -/
theorem C144_line_limit (μ : Measure Ω) [IsProbabilityMeasure μ] (E : Num ℝ) (P : ℕ → Params ℝ) (S : Select ℝ) (sy : List String) (atoms fw : List ℕ) (hS : Picks S sy atoms fw)
    (m M : ℕ) (hG : ∀ F, M ≤ F → UserGrid E (P F) F m M) (hdis : ∀ F, (P F).spacing = "logarithmic" ∨ (P F).nSteps ≤ (M : ℤ) - m + 1) (C : Ω → ℕ → M3 ℝ) (V : Ω → ℕ → ℝ) (s x : Ω → ℕ → ℕ → V3 ℝ)
    (hst : ∀ F ω, StoredIn F sy.length (C ω) (s ω) (x ω)) (q : ℕ → ℝ) (A : Finset (Fin 3)) (Ξ : ℕ × Fin 3 → Ω → ℝ) (h : RandomWalk μ Ξ) (v C₄ : ℝ) (hC : 0 ≤ C₄) (hs : StepMoments μ Ξ v C₄)
    (hΞ : ∀ j l ω, totalMove unitCell (x ω) fw atoms q j (j + 1) l = Ξ (j, l) ω) (sq : ℝ → ℝ) (o : Oracle ℝ G) (U : UncParams ℝ) (hblock : U.opt.block = false) (hsub : U.sub = 1) (base : ℕ → Ω → PyM (Base ℝ)) (unit : ℝ)
    (hbase : ∀ F ω, ReadFrames E (P F) S (cellFrames F sy (C ω) (V ω) (s ω)) (cellUniverse F sy (C ω) (V ω) (s ω)) (base F ω) unit) (g g' : ℕ → Ω → G) (Z : ℕ → Ω → Analyzer ℝ)
    (hZ : ∀ F, 2 ≤ F → M ≤ F → ∀ ω, Collective U atoms.length sq o (g F ω) (g' F ω) (base F ω) (Z F ω) q A) (r : ℕ) (δ : ℝ) (hδ : ∀ F, δ = (P F).stepSkip.val * (P F).timeStep.val / unit) (ε : ℝ) (hε : 0 < ε) :
    Filter.Tendsto (fun F => μ.real {ω | ∃ D c, FittedLine (Z F ω).diff r D c ∧ ε ≤ |D - A.card * v / δ|}) Filter.atTop (nhds 0) := by
  have l2 : Filter.Tendsto (fun F => ∑ τ ∈ Finset.Icc m M, mseBound A v C₄ 1 τ F / (ε * m * δ / (1 + 2 * M)) ^ 2) Filter.atTop (nhds 0) := by
    have := tendsto_finsetSum (Finset.Icc m M) fun τ _ => (mseBound_tendsto A v C₄ 1 τ).div_const ((ε * m * δ / (1 + 2 * M)) ^ 2)
    simpa using this
  refine tendsto_of_tendsto_of_tendsto_of_le_of_le' tendsto_const_nhds l2 (Filter.Eventually.of_forall fun F => measureReal_nonneg) ((Filter.eventually_ge_atTop (max 2 M)).mono fun F hF => ?_)
  have hF2 := (le_max_left 2 M).trans hF
  have hFM := (le_max_right 2 M).trans hF
  exact C144_line_error μ E (P F) S sy atoms fw hS F m M hF2 hFM (hG F hFM) (hdis F) C V s x (hst F) q A Ξ h v C₄ hC hs hΞ sq o U hblock hsub (base F) unit (hbase F) (g F) (g' F) (Z F) (hZ F hF2 hFM) r δ (hδ F) ε hε

/-- **C144, limit of the fit without intercept.** The gradients of the MSTD and of the MSCD tend to the true ones in probability. -/
theorem C144_ray_limit (μ : Measure Ω) [IsProbabilityMeasure μ] (E : Num ℝ) (P : ℕ → Params ℝ) (S : Select ℝ) (sy : List String) (atoms fw : List ℕ) (hS : Picks S sy atoms fw) (hne : atoms ≠ [])
    (hP : ∀ F, DefaultGrid E (P F)) (hn : ∀ F : ℕ, (F : ℤ) ≤ (P F).nSteps) (L : M3 ℝ) (V : ℝ) (u : Ω → ℕ → ℕ → V3 ℝ) (m : Ω → ℕ → ℕ → Fin 3 → ℤ)
    (hstep : ∀ ω, ∀ i < sy.length, ∀ j, HalfCell fun k => u ω i (j + 1) k - u ω i j k) (charge : Charge ℝ) (hq : ∀ l, charge = .array l → l.length = atoms.length)
    (Ξ Θ : ℕ × Fin 3 → Ω → ℝ) (h : RandomWalk μ Ξ) (h' : RandomWalk μ Θ) (v w C : ℝ) (hC : 0 ≤ C) (hs : StepMoments μ Ξ v C) (hs' : StepMoments μ Θ w C)
    (hΞ : ∀ j l ω, totalMove L (u ω) fw atoms (fun _ => 1) j (j + 1) l = Ξ (j, l) ω) (hΘ : ∀ j l ω, totalMove L (u ω) fw atoms charge.of j (j + 1) l = Θ (j, l) ω)
    (sq : ℝ → ℝ) (o : Oracle ℝ G) (U : UncParams ℝ) (hblock : U.opt.block = false) (hsub : U.sub = 1) (base : ℕ → Ω → PyM (Base ℝ)) (unit : ℝ)
    (hbase : ∀ F ω, ReadFrom E (P F) S F sy L V (u ω) (m ω) (base F ω) unit) (g g' : ℕ → Ω → G) (J Y : ℕ → Ω → Analyzer ℝ) (τ : ℕ) (h1 : 1 ≤ τ)
    (hJ : ∀ F, 4 * τ ≤ F → ∀ ω, jumpAnalyzer sq o (g F ω) U (base F ω) = .ok (J F ω, g' F ω)) (hY : ∀ F, 4 * τ ≤ F → ∀ ω, conductivityAnalyzer sq o (g F ω) U charge (base F ω) = .ok (Y F ω, g' F ω))
    (δ : ℝ) (hδ : ∀ F, δ = (P F).stepSkip.val * (P F).timeStep.val / unit) (ε : ℝ) (hε : 0 < ε) :
    Filter.Tendsto (fun F => μ.real {ω | ∃ D, FittedRay (J F ω).diff (τ - 1) D ∧ ε ≤ |D - (axesOf U.dimension).card * v / δ|}) Filter.atTop (nhds 0) ∧
      Filter.Tendsto (fun F => μ.real {ω | ∃ D, FittedRay (Y F ω).diff (τ - 1) D ∧ ε ≤ |D - 3 * w / δ|}) Filter.atTop (nhds 0) := by
  have l1 := (mseBound_tendsto (axesOf U.dimension) v C 1 τ).div_const ((ε * τ * δ) ^ 2)
  have l2 := (mseBound_tendsto Finset.univ w C 1 τ).div_const ((ε * τ * δ) ^ 2)
  rw [zero_div] at l1 l2
  refine ⟨tendsto_of_tendsto_of_tendsto_of_le_of_le' tendsto_const_nhds l1 (Filter.Eventually.of_forall fun F => measureReal_nonneg) ((Filter.eventually_ge_atTop (4 * τ)).mono fun F hF => ?_),
    tendsto_of_tendsto_of_tendsto_of_le_of_le' tendsto_const_nhds l2 (Filter.Eventually.of_forall fun F => measureReal_nonneg) ((Filter.eventually_ge_atTop (4 * τ)).mono fun F hF => ?_)⟩
  · exact C144_jump_fit μ E (P F) S sy atoms fw hS hne (hP F) F (hn F) L V u m (fun ω i hi j _ => hstep ω i hi j) Ξ h v C hC hs hΞ sq o U hblock hsub (base F) unit (hbase F) (g F) (g' F) (J F) (hJ F hF) τ h1 hF δ
      (hδ F) ε hε
  · exact C144_conductivity_fit μ E (P F) S sy atoms fw hS hne (hP F) F (hn F) L V u m (fun ω i hi j _ => hstep ω i hi j) charge hq Θ h' w C hC hs' hΘ sq o U hblock hsub (base F) unit (hbase F) (g F) (g' F) (Y F)
      (hY F hF) τ h1 hF δ (hδ F) ε hε

/-! ### Example: two atoms that move together -/

/-- Intervals of 1 to 4 frames. -/
noncomputable def exParamsQ (F : ℕ) : Params ℝ := { exParamsF F with maxDt := some 8, nSteps := 4 }

theorem exParamsQ_grid (F : ℕ) (hF : 4 ≤ F) : UserGrid exNumR (exParamsQ F) F 1 4 where
  fl := rfl
  pos := by simp [exParamsQ, exParamsF, PyNum.val]
  sampling := rfl
  minNonneg := by simp [exParamsQ, exParamsF, PyNum.val]
  maxNonneg := by simp [exParamsQ, exParamsF, PyNum.val]
  first := by simp [exParamsQ, exParamsF, PyNum.val]
  last := by
    simp only [exParamsQ, exParamsF, PyNum.val, Option.getD_some]
    norm_num
  ordered := by norm_num
  spacing := .inl rfl

theorem exPaired_stored (ω : ℕ × ℕ × Fin 3 → Bool) (F : ℕ) : StoredIn F 3 (fun _ => exCube) (exPaired ω) (exPaired ω) := by
  intro i _ j _
  refine ⟨⟨_, exPaired_half ω i j, fun l => (exCube_cart (fun k => exPaired ω i (j + 1) k - exPaired ω i j k) l).symm⟩, 0, fun l => ?_⟩
  simp [exCube_cart]

theorem exPaired_unit (q : ℕ → ℝ) (j : ℕ) (l : Fin 3) (ω : ℕ × ℕ × Fin 3 → Bool) :
    totalMove unitCell (exPaired ω) [2] [0, 1] q j (j + 1) l = (q 0 + q 1) * exSign (ω (0, j, l)) := by
  have hc : (unitCell : M3 ℝ) = exCube := rfl
  rw [hc]
  exact exPaired_total q j l ω

theorem exPaired_runs (ω : ℕ × ℕ × Fin 3 → Bool) (F : ℕ) (hF : 4 ≤ F) : AllAnalyzed 2 id (exOracle ℝ) () exUncR
    (fromAse exNumR (exParamsQ F) exSelectR 1 none (.one (cellFrames F ["Li", "Li", "O"] (fun _ => exCube) (fun _ => 1) (exPaired ω)))) :=
  C79_bounds_partial exNumR (exParamsQ F) exSelectR ["Li", "Li", "O"] [0, 1] [2] (.species ["Li"] rfl rfl) (by simp) (by intro f hf; cases hf) F 1 4
    (exParamsQ_grid F hF) (by simp [exParamsQ]) (.inr (by simp [exParamsQ])) (by omega) hF (by simp; omega) (fun _ => exCube) (fun _ _ => exCube_nonsingular) (fun _ => 1) (exPaired ω)
    (by
      show ((3 * 2 * F * F * 8 : ℕ) : ℝ) ≤ ((3 * 2 * F * F * 8 : ℕ) : ℝ) * 10 ^ 9
      push_cast
      nlinarith [sq_nonneg (F : ℝ)])
    _ 1 (.inl ⟨rfl, rfl⟩) (fun h => by norm_num at h) id (exOracle ℝ) () exUncR (.off rfl rfl) le_rfl (by decide +kernel)

/-- The hypotheses hold: two atoms that always move together, with the charges 2 and -1; the MSTD has the gradient 3/8 in the limit, the MSCD 3/32. -/
example : ∃ J Y : ℕ → (ℕ × ℕ × Fin 3 → Bool) → Analyzer ℝ,
    (∀ F, 4 ≤ F → ∀ ω, jumpAnalyzer id (exOracle ℝ) () exUncR (fromAse exNumR (exParamsQ F) exSelectR 1 none
      (.one (cellFrames F ["Li", "Li", "O"] (fun _ => exCube) (fun _ => 1) (exPaired ω)))) = .ok (J F ω, ())) ∧
    (∀ F, 4 ≤ F → ∀ ω, conductivityAnalyzer id (exOracle ℝ) () exUncR (.array [2, -1]) (fromAse exNumR (exParamsQ F) exSelectR 1 none
      (.one (cellFrames F ["Li", "Li", "O"] (fun _ => exCube) (fun _ => 1) (exPaired ω)))) = .ok (Y F ω, ())) ∧
    Filter.Tendsto (fun F => exTosses.real {ω | ∃ D c, FittedLine (J F ω).diff 0 D c ∧ 1 / 50 ≤ |D - 3 / 8|}) Filter.atTop (nhds 0) ∧
    Filter.Tendsto (fun F => exTosses.real {ω | ∃ D c, FittedLine (Y F ω).diff 0 D c ∧ 1 / 50 ≤ |D - 3 / 32|}) Filter.atTop (nhds 0) := by
  have hq : ∀ l : List ℝ, Charge.array [2, -1] = .array l → l.length = 2 := by rintro l ⟨⟩; rfl
  have hex : ∀ F ω, ∃ J Y, 4 ≤ F → jumpAnalyzer id (exOracle ℝ) () exUncR (fromAse exNumR (exParamsQ F) exSelectR 1 none
      (.one (cellFrames F ["Li", "Li", "O"] (fun _ => exCube) (fun _ => 1) (exPaired ω)))) = .ok (J, ()) ∧
      conductivityAnalyzer id (exOracle ℝ) () exUncR (.array [2, -1]) (fromAse exNumR (exParamsQ F) exSelectR 1 none
      (.one (cellFrames F ["Li", "Li", "O"] (fun _ => exCube) (fun _ => 1) (exPaired ω)))) = .ok (Y, ()) := by
    intro F ω
    obtain ⟨-, ⟨J0, _, -⟩, -⟩ := exPaired_runs ω 4 (by omega)
    by_cases hF : 4 ≤ F
    · obtain ⟨-, ⟨J, _, hJ, -⟩, h3⟩ := exPaired_runs ω F hF
      obtain ⟨Y, _, hY, -⟩ := h3 (.array [2, -1]) hq
      exact ⟨J, Y, fun _ => ⟨hJ, hY⟩⟩
    · exact ⟨J0, J0, fun h => absurd h hF⟩
  choose J Y hZ using hex
  have hax : (axesOf exUncR.dimension).card = 3 := by decide +kernel
  have hb : ∀ F ω, ReadFrames exNumR (exParamsQ F) exSelectR (cellFrames F ["Li", "Li", "O"] (fun _ => exCube) (fun _ => 1) (exPaired ω))
      (cellUniverse F ["Li", "Li", "O"] (fun _ => exCube) (fun _ => 1) (exPaired ω))
      (fromAse exNumR (exParamsQ F) exSelectR 1 none (.one (cellFrames F ["Li", "Li", "O"] (fun _ => exCube) (fun _ => 1) (exPaired ω)))) 1 := fun F ω => Or.inl ⟨rfl, rfl⟩
  have hδ : ∀ F, (2 : ℝ) = (exParamsQ F).stepSkip.val * (exParamsQ F).timeStep.val / 1 := fun F => by simp [exParamsQ, exParamsF, PyNum.val]
  have w1 := exPaired_walk 2
  have w2 := exPaired_walk 1
  refine ⟨J, Y, fun F hF ω => (hZ F ω hF).1, fun F hF ω => (hZ F ω hF).2, ?_, ?_⟩
  · have := C144_line_limit exTosses exNumR exParamsQ exSelectR ["Li", "Li", "O"] [0, 1] [2] (.species ["Li"] rfl rfl) 1 4 exParamsQ_grid (fun F => .inr (by simp [exParamsQ]))
      (fun _ _ => exCube) (fun _ _ => 1) exPaired exPaired (fun F ω => exPaired_stored ω F) (fun _ => 1) (axesOf exUncR.dimension) _ w1.1 _ _
      (by norm_num) w1.2 (fun j l ω => by rw [exPaired_unit]; norm_num) id (exOracle ℝ) exUncR rfl rfl _ 1 hb
      (fun _ _ => ()) (fun _ _ => ()) J (fun F _ hF ω => .total (hZ F ω hF).1) 0 2 hδ (1 / 50) (by norm_num)
    rw [hax] at this
    norm_num at this ⊢
    exact this
  · have := C144_line_limit exTosses exNumR exParamsQ exSelectR ["Li", "Li", "O"] [0, 1] [2] (.species ["Li"] rfl rfl) 1 4 exParamsQ_grid (fun F => .inr (by simp [exParamsQ]))
      (fun _ _ => exCube) (fun _ _ => 1) exPaired exPaired (fun F ω => exPaired_stored ω F) (Charge.array [2, -1]).of Finset.univ _ w2.1 _ _
      (by norm_num) w2.2 (fun j l ω => by rw [exPaired_unit]; norm_num [Charge.of]) id (exOracle ℝ) exUncR rfl rfl _ 1 hb
      (fun _ _ => ()) (fun _ _ => ()) Y (fun F _ hF ω => .charge _ hq (hZ F ω hF).2) 0 2 hδ (1 / 50) (by norm_num)
    norm_num at this ⊢
    exact this

end Kinisi
