import Verif.Lemmas.Statistics
import Verif.Props.Covariance

/-!
# The covariance matrix of a random walk: C94, C95
-/

set_option linter.unusedSectionVars false
set_option linter.unusedVariables false

namespace Kinisi
open MeasureTheory ProbabilityTheory Spec

variable {Ω : Type} [MeasurableSpace Ω]

theorem blocks_cov {μ : Measure Ω} [IsProbabilityMeasure μ] {ξ : ℕ × ℕ × Fin 3 → Ω → ℝ} (h : RandomWalk μ ξ) (A : Finset (Fin 3))
    {N T t t' : ℕ} (hN : 0 < N) (hT : 0 < T) (h1 : t ∣ t') (h2 : t' ∣ T) :
    cov[blockMsd A ξ N t (T / t), blockMsd A ξ N t' (T / t'); μ] =
      Var[blockMsd A ξ N t (T / t); μ] * ((((N * T : ℕ) : ℝ) / t) / (((N * T : ℕ) : ℝ) / t')) := by
  obtain ⟨c, rfl⟩ := h1
  obtain ⟨M, rfl⟩ := h2
  have ht : 0 < t := Nat.pos_of_ne_zero fun h => by simp [h] at hT
  have hc : 0 < c := Nat.pos_of_ne_zero fun h => by simp [h] at hT
  have hM : 0 < M := Nat.pos_of_ne_zero fun h => by simp [h] at hT
  have d1 : t * c * M / t = c * M := by rw [Nat.mul_assoc, Nat.mul_div_cancel_left _ ht]
  have d2 : t * c * M / (t * c) = M := Nat.mul_div_cancel_left _ (Nat.mul_pos ht hc)
  rw [d1, d2, Nat.mul_comm t c, blockMsd_cov h A hN ht hc hM]
  have hN' : (N : ℝ) ≠ 0 := by exact_mod_cast hN.ne'
  have hM' : (M : ℝ) ≠ 0 := by exact_mod_cast hM.ne'
  have hc' : (c : ℝ) ≠ 0 := by exact_mod_cast hc.ne'
  have ht' : (t : ℝ) ≠ 0 := by exact_mod_cast ht.ne'
  push_cast
  field_simp

/-! ## C94 -/

/-- **C94, what holds.** `N` atoms make independent steps of mean zero.  For intervals each of which divides the next and the number `T` of
steps, take the mean squared displacements over disjoint windows.  Given their variances and the `n_o` of a multi-origin parse
(`N T / τ`), `_populate_covariance_matrix` returns exactly their covariance matrix.  Missing: the windows that kinisi averages overlap. -/
theorem C94_disjoint_windows_partial (μ : Measure Ω) [IsProbabilityMeasure μ] (ξ : ℕ × ℕ × Fin 3 → Ω → ℝ) (h : RandomWalk μ ξ)
    (A : Finset (Fin 3)) (N T : ℕ) (hN : 0 < N) (hT : 0 < T) {m : ℕ} (τ : Fin m → ℕ) (hdiv : ∀ i, τ i ∣ T)
    (hchain : ∀ i j, i ≤ j → τ i ∣ τ j) (extra : List ℝ) :
    ∃ C : Matrix (Fin m) (Fin m) ℝ,
      populateCovariance (List.ofFn fun i => some (Var[blockMsd A ξ N (τ i) (T / τ i); μ]))
        ((List.ofFn fun i => ((N * T : ℕ) : ℝ) / τ i) ++ extra) = .ok (rowsOf C) ∧
      ∀ i j, C i j = cov[blockMsd A ξ N (τ i) (T / τ i), blockMsd A ξ N (τ j) (T / τ j); μ] := by
  have hpos : ∀ i, 0 < τ i := fun i => Nat.pos_of_dvd_of_pos (hdiv i) hT
  obtain ⟨C, h1, h2, -, h4⟩ := C40_covariance (fun i => Var[blockMsd A ξ N (τ i) (T / τ i); μ])
    (fun i => ((N * T : ℕ) : ℝ) / τ i) extra fun i => by
      have : (τ i : ℝ) ≠ 0 := by exact_mod_cast (hpos i).ne'
      have : ((N * T : ℕ) : ℝ) ≠ 0 := by exact_mod_cast (Nat.mul_pos hN hT).ne'
      positivity
  refine ⟨C, h1, fun i j => ?_⟩
  rcases le_total i j with hij | hij
  · rw [h4 i j hij, blocks_cov h A hN hT (hchain i j hij) (hdiv j)]
  · rw [h2, h4 j i hij, covariance_comm, blocks_cov h A hN hT (hchain j i hij) (hdiv i)]

/-- The steps of the window of `τ` steps that starts at `k`. -/
def slideSet (τ k : ℕ) : Finset (ℕ × ℕ × Fin 3) := (Finset.range τ).image fun s => (0, k + s, 0)

theorem slidingMsd_one (ξ : ℕ × ℕ × Fin 3 → Ω → ℝ) (τ T : ℕ) :
    slidingMsd {0} ξ 1 τ T = fun ω => (((T - τ + 1 : ℕ) : ℝ))⁻¹ * ∑ k ∈ Finset.range (T - τ + 1), moveOver ξ (slideSet τ k) ω ^ 2 := by
  funext ω
  unfold slidingMsd
  rw [Finset.sum_range_one, div_eq_inv_mul, Nat.cast_one, one_mul]
  congr 1
  refine Finset.sum_congr rfl fun k _ => ?_
  rw [Finset.sum_singleton]
  congr 1
  unfold moveOver slideSet
  rw [Finset.sum_image]
  intro s _ s' _ hs
  have := (Prod.mk.inj (Prod.mk.inj hs).2).1
  omega

/-- The number of steps shared by two windows. -/
def shared (τ τ' T : ℕ) : ℕ :=
  ∑ k ∈ Finset.range (T - τ + 1), ∑ k' ∈ Finset.range (T - τ' + 1), (slideSet τ k ∩ slideSet τ' k').card ^ 2

theorem sliding_cov {μ : Measure Ω} [IsProbabilityMeasure μ] {ξ : ℕ × ℕ × Fin 3 → Ω → ℝ} (h : RandomWalk μ ξ) {σ : ℝ}
    (hs : NormalMoments μ ξ σ) (τ τ' T : ℕ) :
    cov[slidingMsd {0} ξ 1 τ T, slidingMsd {0} ξ 1 τ' T; μ] =
      ((((T - τ + 1 : ℕ) : ℝ))⁻¹ * ((((T - τ' + 1 : ℕ) : ℝ))⁻¹)) * (2 * (shared τ τ' T : ℝ) * σ ^ 4) := by
  rw [slidingMsd_one, slidingMsd_one, covariance_const_mul_left, covariance_const_mul_right,
    covariance_fun_sum_fun_sum' (fun a _ => sq_memLp h _) (fun b _ => sq_memLp h _)]
  have : ∀ k k', cov[fun ω => moveOver ξ (slideSet τ k) ω ^ 2, fun ω => moveOver ξ (slideSet τ' k') ω ^ 2; μ] =
      2 * ((slideSet τ k ∩ slideSet τ' k').card : ℝ) ^ 2 * σ ^ 4 := fun k k' => by rw [cov_inter h, moveOver_var h hs]
  simp only [this]
  rw [shared]
  push_cast
  simp only [Finset.mul_sum, Finset.sum_mul]
  simp only [mul_assoc]

/-- **C94, violated for overlapping windows.** One atom making four normal steps along one axis: from the true variances of the mean
squared displacements over two and three steps (all windows) and their `n_o`, `_populate_covariance_matrix` gives a covariance that is not the
true one. -/
theorem C94_violated (μ : Measure Ω) [IsProbabilityMeasure μ] (ξ : ℕ × ℕ × Fin 3 → Ω → ℝ) (h : RandomWalk μ ξ) (σ : ℝ)
    (hs : NormalMoments μ ξ σ) (hσ : σ ≠ 0) :
    ∃ C : Matrix (Fin 2) (Fin 2) ℝ,
      populateCovariance [some (Var[slidingMsd {0} ξ 1 2 4; μ]), some (Var[slidingMsd {0} ξ 1 3 4; μ])] [4 / 2, 4 / 3] =
        .ok (rowsOf C) ∧
      C 0 1 = 16 / 3 * σ ^ 4 ∧ cov[slidingMsd {0} ξ 1 2 4, slidingMsd {0} ξ 1 3 4; μ] = 6 * σ ^ 4 ∧
      C 0 1 ≠ cov[slidingMsd {0} ξ 1 2 4, slidingMsd {0} ξ 1 3 4; μ] := by
  obtain ⟨C, h1, h2, -, h4⟩ := C40_covariance (m := 2) ![Var[slidingMsd {0} ξ 1 2 4; μ], Var[slidingMsd {0} ξ 1 3 4; μ]]
    ![(4 : ℝ) / 2, 4 / 3] [] (by intro i; fin_cases i <;> simp)
  have e : Var[slidingMsd {0} ξ 1 2 4; μ] = 32 / 9 * σ ^ 4 := by
    rw [← covariance_self, sliding_cov h hs, show shared 2 2 4 = 16 from by decide]
    · norm_num; ring
    · rw [slidingMsd_one]
      exact ((Finset.measurable_fun_sum _ fun b _ => (moveOver_measurable h _).pow_const 2).const_mul _).aemeasurable
  have e1 : C 0 1 = 16 / 3 * σ ^ 4 := by
    rw [h4 0 1 (by decide)]
    simp only [Matrix.cons_val_zero, Matrix.cons_val_one]
    rw [e]; ring
  have e2 : cov[slidingMsd {0} ξ 1 2 4, slidingMsd {0} ξ 1 3 4; μ] = 6 * σ ^ 4 := by
    rw [sliding_cov h hs, show shared 2 3 4 = 18 from by decide]
    norm_num; ring
  refine ⟨C, ?_, e1, e2, ?_⟩
  · simpa [List.ofFn_succ] using h1
  · rw [e1, e2]
    intro hh
    have : σ ^ 4 = 0 := by linarith
    exact hσ (by simpa using this)

/-! ## C95 -/

/-- **C95.** If the steps have the second and fourth moments of a normal distribution with variance `σ²`, the model variance
`a / n_o * dt²` with `a = 2 d σ⁴ / δ²` (`d` axes, `δ` the time between frames) is exactly the variance of the mean squared displacement over
disjoint windows, for every interval that divides the number of steps. -/
theorem C95_model_variance (μ : Measure Ω) [IsProbabilityMeasure μ] (ξ : ℕ × ℕ × Fin 3 → Ω → ℝ) (h : RandomWalk μ ξ) (σ : ℝ)
    (hs : NormalMoments μ ξ σ) (A : Finset (Fin 3)) (N T : ℕ) (hN : 0 < N) (hT : 0 < T) {m : ℕ} (τ : Fin m → ℕ) (hdiv : ∀ i, τ i ∣ T)
    (δ : ℝ) (hδ : δ ≠ 0) :
    modelVariance (List.ofFn fun i => ((N * T : ℕ) : ℝ) / τ i) (List.ofFn fun i => (τ i : ℝ) * δ) (2 * A.card * σ ^ 4 / δ ^ 2) =
      .ok (List.ofFn fun i => some (Var[blockMsd A ξ N (τ i) (T / τ i); μ])) := by
  have hpos : ∀ i, 0 < τ i := fun i => Nat.pos_of_dvd_of_pos (hdiv i) hT
  unfold modelVariance
  rw [if_pos (by simp)]
  congr 1
  apply List.ext_getElem
  · simp
  · intro k h1 h2
    simp only [List.getElem_map, List.getElem_zip, List.getElem_ofFn]
    have hk : k < m := by simpa using h2
    set i : Fin m := ⟨k, hk⟩ with hi
    have hNT : ((N * T : ℕ) : ℝ) ≠ 0 := by exact_mod_cast (Nat.mul_pos hN hT).ne'
    have hti : (τ i : ℝ) ≠ 0 := by exact_mod_cast (hpos i).ne'
    obtain ⟨M, hM⟩ := hdiv i
    have hM0 : 0 < M := Nat.pos_of_ne_zero fun h => by simp [h] at hM; omega
    have hdv : T / τ i = M := by rw [hM, Nat.mul_div_cancel_left _ (hpos i)]
    rw [hdv, blockMsd_var_normal h hs A hN (hpos i) hM0]
    have hne : ((N * T : ℕ) : ℝ) / τ i ≠ 0 := div_ne_zero hNT hti
    simp only [npMul, npDiv, Option.bind_some, if_neg hne, Option.map_some, Option.some.injEq]
    have hN' : (N : ℝ) ≠ 0 := by exact_mod_cast hN.ne'
    have hM' : (M : ℝ) ≠ 0 := by exact_mod_cast hM0.ne'
    rw [hM]
    push_cast
    field_simp

/-- **C95, matrix.** Hence the matrix that `model=True` builds from this coefficient is the true covariance matrix. -/
theorem C95_model_matrix (μ : Measure Ω) [IsProbabilityMeasure μ] (ξ : ℕ × ℕ × Fin 3 → Ω → ℝ) (h : RandomWalk μ ξ) (σ : ℝ)
    (hs : NormalMoments μ ξ σ) (A : Finset (Fin 3)) (N T : ℕ) (hN : 0 < N) (hT : 0 < T) {m : ℕ} (τ : Fin m → ℕ) (hdiv : ∀ i, τ i ∣ T)
    (hchain : ∀ i j, i ≤ j → τ i ∣ τ j) (δ : ℝ) (hδ : δ ≠ 0) :
    ∃ v C, modelVariance (List.ofFn fun i => ((N * T : ℕ) : ℝ) / τ i) (List.ofFn fun i => (τ i : ℝ) * δ) (2 * A.card * σ ^ 4 / δ ^ 2) =
        .ok v ∧
      populateCovariance v (List.ofFn fun i => ((N * T : ℕ) : ℝ) / τ i) = .ok (rowsOf C) ∧
      ∀ i j, C i j = cov[blockMsd A ξ N (τ i) (T / τ i), blockMsd A ξ N (τ j) (T / τ j); μ] := by
  obtain ⟨C, h1, h2⟩ := C94_disjoint_windows_partial μ ξ h A N T hN hT τ hdiv hchain []
  rw [List.append_nil] at h1
  exact ⟨_, C, C95_model_variance μ ξ h σ hs A N T hN hT τ hdiv δ hδ, h1, h2⟩

/-- `C94_disjoint_windows_partial`, `C95_model_variance`. Independent standard normal steps, eight of them, intervals 1, 2, 4 and 8. -/
example : ∃ (μ : Measure (ℕ × ℕ × Fin 3 → ℝ)) (ξ : ℕ × ℕ × Fin 3 → (ℕ × ℕ × Fin 3 → ℝ) → ℝ),
    IsProbabilityMeasure μ ∧ RandomWalk μ ξ ∧ NormalMoments μ ξ 1 ∧ (∀ i : Fin 4, (![1, 2, 4, 8] : Fin 4 → ℕ) i ∣ 8) ∧
      ∀ i j : Fin 4, i ≤ j → (![1, 2, 4, 8] : Fin 4 → ℕ) i ∣ (![1, 2, 4, 8] : Fin 4 → ℕ) j := by
  obtain ⟨h1, h2⟩ := gaussian_walk 1
  refine ⟨_, _, inferInstance, h1, ?_, by decide, by decide⟩
  simpa using h2

end Kinisi
