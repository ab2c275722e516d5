import Verif.Props.Observables

/-!
# C37–C39: resampling
-/

set_option linter.unusedSectionVars false
set_option linter.unusedVariables false

namespace Kinisi
open Spec
variable {K : Type} [Field K] [LinearOrder K] [IsStrictOrderedRing K] [FloorRing K] {G : Type}

/-! ## C37 -/

theorem untilNormalLoop_spec (o : Oracle K G) (l : List K) (nSamples alpha : K) (maxR : ℕ) (vals : List K) (p : Option K) (g : G)
    {r : List K × Option K × G} (h : untilNormalLoop o l nSamples alpha maxR vals p g = .ok r)
    (hp : o.normaltest vals = .ok p) :
    ∃ m more, r.1 = vals ++ more ∧ more.length = 100 * m ∧ (0 < m → r.1.length < maxR + 100) ∧
      o.normaltest r.1 = .ok r.2.1 ∧ (pBelow r.2.1 alpha = false ∨ maxR ≤ r.1.length) := by
  fun_induction untilNormalLoop o l nSamples alpha maxR vals p g with
  | case1 vals p g hc e hb => cases h
  | case2 vals p g hc more g1 hb e hn => cases h
  | case3 vals p g hc more g1 hb p1 hn ih =>
    obtain ⟨m, more', h1, h2, h3, h4, h5⟩ := ih h hn
    have hl := bootstrapMeans_length o l nSamples 100 g hb
    simp only at hl
    refine ⟨m + 1, more ++ more', by rw [h1, List.append_assoc], by rw [List.length_append, hl, h2]; ring, ?_, h4, h5⟩
    intro _
    rcases Nat.eq_zero_or_pos m with rfl | hm
    · rw [h1]
      have : more'.length = 0 := by omega
      simp only [List.length_append, hl, this]
      omega
    · exact h3 hm
  | case4 vals p g hc =>
    obtain rfl := Except.ok.inj h
    refine ⟨0, [], by simp, by simp, by omega, hp, ?_⟩
    by_cases hb : pBelow p alpha = true
    · right
      dsimp only
      by_contra hlt
      exact hc ⟨hb, by omega⟩
    · left; simpa using hb

/-- **C37.** `sample_until_normal` is a total function of the random draws.  When it returns: the number of values is `n_resamples + 100 m`;
when further values were drawn it is below `max_resamples + 100`; and when it returns before `max_resamples` values are there, the
normality test of exactly the returned values has passed (or is nan). -/
theorem C37_budget (o : Oracle K G) (l : List K) (nSamples : K) (nR maxR : ℕ) (alpha : K) (g g' : G) (vals : List K) (w : Bool)
    (h : sampleUntilNormal o l nSamples nR maxR alpha g = .ok (vals, w, g')) :
    (∃ m, vals.length = nR + 100 * m ∧ (0 < m → vals.length < maxR + 100)) ∧
    (vals.length < maxR → ∃ p, o.normaltest vals = .ok p ∧ ∀ x, p = some x → alpha ≤ x) := by
  unfold sampleUntilNormal at h
  cases hb : bootstrapMeans o l nSamples nR g with
  | error e => rw [hb] at h; cases h
  | ok r =>
  obtain ⟨v0, g1⟩ := r
  rw [hb] at h
  simp only at h
  cases hn : o.normaltest v0 with
  | error e => rw [hn] at h; cases h
  | ok p =>
  rw [hn] at h
  simp only at h
  cases hl : untilNormalLoop o l nSamples alpha maxR v0 p g1 with
  | error e => rw [hl] at h; cases h
  | ok r =>
  rw [hl] at h
  obtain ⟨v1, p1, g2⟩ := r
  obtain ⟨rfl, -⟩ := Prod.mk.inj (Except.ok.inj h)
  obtain ⟨m, more, h1, h2, h3, h4, h5⟩ := untilNormalLoop_spec o l nSamples alpha maxR v0 p g1 hl hn
  dsimp only at h1 h2 h3 h4 h5
  have hlen := bootstrapMeans_length o l nSamples nR g hb
  dsimp only at hlen
  refine ⟨⟨m, by rw [h1, List.length_append, hlen, h2], h3⟩, ?_⟩
  intro hlt
  refine ⟨p1, h4, ?_⟩
  intro x hx
  subst hx
  rcases h5 with h5 | h5
  · simpa [pBelow] using h5
  · omega

theorem untilNormalLoop_failed (o : Oracle K G) (l : List K) (nSamples alpha : K) (maxR : ℕ) (vals : List K) (p : Option K) (g : G)
    {r : List K × Option K × G} (h : untilNormalLoop o l nSamples alpha maxR vals p g = .ok r) (hp : o.normaltest vals = .ok p) (k : ℕ)
    (hk : vals.length + 100 * k < r.1.length) : ∃ x, o.normaltest (r.1.take (vals.length + 100 * k)) = .ok (some x) ∧ x < alpha := by
  fun_induction untilNormalLoop o l nSamples alpha maxR vals p g generalizing k with
  | case1 vals p g hc e hb => cases h
  | case2 vals p g hc more g1 hb e hn => cases h
  | case3 vals p g hc more g1 hb p1 hn ih =>
    obtain ⟨m, more', h1, -⟩ := untilNormalLoop_spec o l nSamples alpha maxR (vals ++ more) p1 g1 h hn
    have hl := bootstrapMeans_length o l nSamples 100 g hb
    simp only at hl
    rcases k with _ | k
    · refine ⟨_, ?_, of_decide_eq_true (p := (p.getD alpha) < alpha) ?_⟩
      · rw [h1, Nat.mul_zero, Nat.add_zero, List.append_assoc, List.take_left, hp]
        cases p with
        | none => simp [pBelow] at hc
        | some x => rfl
      · cases p with
        | none => simp [pBelow] at hc
        | some x => simpa [pBelow] using hc.1
    · have := ih h hn k (by rw [List.length_append, hl]; omega)
      rw [List.length_append, hl, show vals.length + 100 + 100 * k = vals.length + 100 * (k + 1) by ring] at this
      exact this
  | case4 vals p g hc =>
    obtain rfl := Except.ok.inj h
    simp only at hk
    omega

/-- **C37, no more than needed.** Whenever further values were drawn, the test of the values so far had failed: a p-value below `alpha`, not an undefined one. -/
theorem C37_needed (o : Oracle K G) (l : List K) (nSamples : K) (nR maxR : ℕ) (alpha : K) (g g' : G) (vals : List K) (w : Bool)
    (h : sampleUntilNormal o l nSamples nR maxR alpha g = .ok (vals, w, g')) (k : ℕ) (hk : nR + 100 * k < vals.length) :
    ∃ x, o.normaltest (vals.take (nR + 100 * k)) = .ok (some x) ∧ x < alpha := by
  unfold sampleUntilNormal at h
  cases hb : bootstrapMeans o l nSamples nR g with
  | error e => rw [hb] at h; cases h
  | ok r =>
  obtain ⟨v0, g1⟩ := r
  rw [hb] at h
  simp only at h
  cases hn : o.normaltest v0 with
  | error e => rw [hn] at h; cases h
  | ok p =>
  rw [hn] at h
  simp only at h
  cases hl : untilNormalLoop o l nSamples alpha maxR v0 p g1 with
  | error e => rw [hl] at h; cases h
  | ok r =>
  rw [hl] at h
  obtain ⟨v1, p1, g2⟩ := r
  obtain ⟨rfl, -⟩ := Prod.mk.inj (Except.ok.inj h)
  have hlen := bootstrapMeans_length o l nSamples nR g hb
  dsimp only at hlen
  subst hlen
  exact untilNormalLoop_failed o l nSamples alpha maxR v0 p g1 hl hn k hk

theorem untilNormalLoop_step {o : Oracle K G} {l : List K} {nSamples alpha : K} {maxR : ℕ} {vals more : List K} {p p1 : Option K} {g g1 : G}
    (hc : pBelow p alpha = true ∧ vals.length < maxR) (hb : bootstrapMeans o l nSamples 100 g = .ok (more, g1))
    (hn : o.normaltest (vals ++ more) = .ok p1) :
    untilNormalLoop o l nSamples alpha maxR vals p g = untilNormalLoop o l nSamples alpha maxR (vals ++ more) p1 g1 := by
  rw [untilNormalLoop, dif_pos hc]
  split
  · rename_i e he; rw [hb] at he; cases he
  · rename_i more' g1' he
    rw [hb] at he
    obtain ⟨rfl, rfl⟩ := Prod.mk.inj (Except.ok.inj he)
    rw [hn]

theorem untilNormalLoop_stop {o : Oracle K G} {l : List K} {nSamples alpha : K} {maxR : ℕ} {vals : List K} {p : Option K} {g : G}
    (hc : ¬ (pBelow p alpha = true ∧ vals.length < maxR)) :
    untilNormalLoop o l nSamples alpha maxR vals p g = .ok (vals, p, g) := by
  rw [untilNormalLoop, dif_neg hc]

/-! ## C38 -/

/-- **C38, what holds.** The warning is issued exactly when the number of values has reached `max_resamples`; in particular it is issued
whenever the returned values fail the test.  Missing: silence when they pass, see `C38_violated`. -/
theorem C38_warning_partial (o : Oracle K G) (l : List K) (nSamples : K) (nR maxR : ℕ) (alpha : K) (g g' : G) (vals : List K) (w : Bool)
    (h : sampleUntilNormal o l nSamples nR maxR alpha g = .ok (vals, w, g')) :
    (w = true ↔ maxR ≤ vals.length) ∧ ∀ x, o.normaltest vals = .ok (some x) → x < alpha → w = true := by
  have hw : w = decide (maxR ≤ vals.length) := by
    unfold sampleUntilNormal at h
    cases hb : bootstrapMeans o l nSamples nR g with
    | error e => rw [hb] at h; cases h
    | ok r =>
    rw [hb] at h
    simp only at h
    cases hn : o.normaltest r.1 with
    | error e => rw [hn] at h; cases h
    | ok p =>
    rw [hn] at h
    simp only at h
    cases hl : untilNormalLoop o l nSamples alpha maxR r.1 p r.2 with
    | error e => rw [hl] at h; cases h
    | ok r =>
    rw [hl] at h
    have := Except.ok.inj h
    rw [Prod.mk.injEq, Prod.mk.injEq] at this
    obtain ⟨rfl, rfl, -⟩ := this
    rfl
  constructor
  · rw [hw]; simp
  · intro x hx hlt
    rw [hw, decide_eq_true_eq]
    by_contra hc
    obtain ⟨p, h1, h2⟩ := (C37_budget o l nSamples nR maxR alpha g g' vals w h).2 (by omega)
    rw [hx] at h1
    have := h2 x (Except.ok.inj h1).symm
    exact absurd this (not_le.mpr hlt)

/-- An oracle whose normality test passes (p = 1) when there are at least `pass` values and fails (p = 0) otherwise; the generator counts the
draws. -/
def exNormal (pass : ℕ) : Oracle ℚ ℕ :=
  { draws := fun g m n => (fun j => ⟨(g + j) % (m + 1), Nat.mod_lt _ (by omega)⟩, g + 1),
    dirichlet := fun g k a => (fun _ => 1 / k, g), category := fun g m => (0, g),
    normaltest := fun l => .ok (some (if pass ≤ l.length then 1 else 0)), reblock := fun _ => .error .external }

/-- **C38 is violated**: the very first test passes (p = 1), but as `n_resamples = max_resamples` the warning "the distribution is not yet normal"
is issued. -/
theorem C38_violated : ∃ vals g', sampleUntilNormal (exNormal 1) [1, 2, 4] 2 10 10 (1 / 1000) 0 = .ok (vals, true, g') ∧
    (exNormal 1).normaltest vals = .ok (some 1) := by
  have hb : (bootstrapMeans (exNormal 1) [1, 2, 4] 2 10 0).toOption.isSome = true := by decide +kernel
  cases hb' : bootstrapMeans (exNormal 1) [1, 2, 4] 2 10 0 with
  | error e => rw [hb'] at hb; cases hb
  | ok r =>
  have hl := bootstrapMeans_length _ _ _ _ _ hb'
  refine ⟨r.1, r.2, ?_, ?_⟩
  · unfold sampleUntilNormal
    rw [hb']
    simp only [exNormal, hl]
    rw [untilNormalLoop]
    rw [dif_neg (by simp [hl])]
    simp [hl]
  · simp [exNormal, hl]

/-- A run that succeeds after one more round: 8 + 100 values, silently. -/
theorem exNormal_run : ∃ vals g', sampleUntilNormal (exNormal 100) [1, 2, 4] 2 8 1000 (1 / 1000) 0 = .ok (vals, false, g') ∧ vals.length = 108 := by
  have hb : (bootstrapMeans (exNormal 100) [1, 2, 4] 2 8 0).toOption.isSome = true := by decide +kernel
  cases hb' : bootstrapMeans (exNormal 100) [1, 2, 4] 2 8 0 with
  | error e => rw [hb'] at hb; cases hb
  | ok r =>
  have hl := bootstrapMeans_length _ _ _ _ _ hb'
  have hg : r.2 = 8 := by
    have h1 : (bootstrapMeans (exNormal 100) [1, 2, 4] 2 8 0).toOption.map Prod.snd = some 8 := by decide +kernel
    rw [hb'] at h1
    simpa [Except.toOption] using h1
  have hc : (bootstrapMeans (exNormal 100) [1, 2, 4] 2 100 8).toOption.isSome = true := by decide +kernel
  cases hc' : bootstrapMeans (exNormal 100) [1, 2, 4] 2 100 8 with
  | error e => rw [hc'] at hc; cases hc
  | ok r' =>
  have hl' := bootstrapMeans_length _ _ _ _ _ hc'
  refine ⟨r.1 ++ r'.1, r'.2, ?_, by simp [hl, hl']⟩
  have hn1 : (exNormal 100).normaltest r.1 = .ok (some 0) := by simp [exNormal, hl]
  have hn2 : (exNormal 100).normaltest (r.1 ++ r'.1) = .ok (some 1) := by simp [exNormal, hl, hl']
  unfold sampleUntilNormal
  rw [hb']
  simp only [hn1]
  rw [hg, untilNormalLoop_step (by simp [pBelow, hl]) hc' hn2, untilNormalLoop_stop (by simp [pBelow]; norm_num)]
  simp [hl, hl']

/-- There the first test had failed (`C37_needed` for the first 8 values). -/
example : ∃ (vals : List ℚ) (x : ℚ), (exNormal 100).normaltest (vals.take 8) = .ok (some x) ∧ x < 1 / 1000 ∧ vals.length = 108 := by
  obtain ⟨vals, g', h, hl⟩ := exNormal_run
  obtain ⟨x, h1, h2⟩ := C37_needed _ _ _ _ _ _ _ _ _ _ h 0 (by rw [hl]; norm_num)
  exact ⟨vals, x, h1, h2, hl⟩

/-! ## C39 -/

theorem mean_bounds {n : ℕ} (hn : 0 < n) (f : Fin n → K) (lo hi : K) (h : ∀ j, lo ≤ f j ∧ f j ≤ hi) :
    lo ≤ (List.ofFn f).sum / (n : K) ∧ (List.ofFn f).sum / (n : K) ≤ hi := by
  have hpos : (0 : K) < (n : K) := by exact_mod_cast hn
  rw [List.sum_ofFn]
  constructor
  · rw [le_div_iff₀ hpos]
    calc lo * n = ∑ _j : Fin n, lo := by rw [Finset.sum_const, Finset.card_univ, Fintype.card_fin, nsmul_eq_mul]; ring
      _ ≤ _ := Finset.sum_le_sum fun j _ => (h j).1
  · rw [div_le_iff₀ hpos]
    calc _ ≤ ∑ _j : Fin n, hi := Finset.sum_le_sum fun j _ => (h j).2
      _ = hi * n := by rw [Finset.sum_const, Finset.card_univ, Fintype.card_fin, nsmul_eq_mul]; ring

/-- `m` is the mean of `n` values drawn from `l`. -/
def IsMeanOfDraws (l : List K) (n : ℕ) (m : K) : Prop := ∃ d : List K, d.length = n ∧ (∀ x ∈ d, x ∈ l) ∧ m = d.sum / (n : K)

/-- **C39.** `_bootstrap` returns exactly the requested number of means; each is the mean of `int(n_samples) ≥ 1` values of the data, hence
between its bounds. -/
theorem C39_bootstrap_means (o : Oracle K G) (l : List K) (nSamples : K) (n : ℕ) (g g' : G) (vals : List K)
    (h : bootstrapMeans o l nSamples n g = .ok (vals, g')) :
    vals.length = n ∧ ∀ m ∈ vals, 1 ≤ pyInt nSamples ∧ IsMeanOfDraws l (pyInt nSamples).toNat m ∧
      ∀ lo hi, (∀ x ∈ l, lo ≤ x ∧ x ≤ hi) → lo ≤ m ∧ m ≤ hi := by
  refine ⟨bootstrapMeans_length o l nSamples n g h, ?_⟩
  induction n generalizing g vals with
  | zero =>
    obtain ⟨rfl, -⟩ := Prod.mk.inj (Except.ok.inj h)
    simp
  | succ n ih =>
    simp only [bootstrapMeans] at h
    cases hr : resampleMean o g l nSamples with
    | error e => rw [hr] at h; cases h
    | ok r =>
    obtain ⟨m0, g1⟩ := r
    rw [hr] at h
    simp only at h
    cases hb : bootstrapMeans o l nSamples n g1 with
    | error e => rw [hb] at h; cases h
    | ok r2 =>
    obtain ⟨ms, g2⟩ := r2
    rw [hb] at h
    simp only at h
    obtain ⟨rfl, rfl⟩ := Prod.mk.inj (Except.ok.inj h)
    intro m hm
    rcases List.mem_cons.mp hm with rfl | hm
    · unfold resampleMean at hr
      cases l with
      | nil => cases hr
      | cons x xs =>
        simp only at hr
        by_cases h1 : pyInt nSamples < 1
        · rw [if_pos h1] at hr; cases hr
        rw [if_neg h1] at hr
        obtain ⟨rfl, -⟩ := Prod.mk.inj (Except.ok.inj hr)
        refine ⟨by omega, ⟨_, by simp, ?_, rfl⟩, ?_⟩
        · intro y hy
          rw [List.mem_ofFn] at hy
          obtain ⟨j, rfl⟩ := hy
          exact List.getElem_mem _
        · intro lo hi hb
          apply mean_bounds (by omega)
          intro j
          exact hb _ (List.getElem_mem _)
    · exact ih g1 ms hb m hm

/-- Rows of non-negative weights with sum one, as numpy's Dirichlet sampler returns them. -/
def IsWeights {k : ℕ} (w : Fin k → K) : Prop := (∀ i, 0 ≤ w i) ∧ ∑ i, w i = 1

/-- **C39, Bayesian bootstrap.** The same bounds for `_bayesian_bootstrap`, for every Dirichlet sampler that returns weights. -/
theorem C39_bayesian_means (o : Oracle K G) (ho : ∀ g k a, IsWeights (o.dirichlet g k a).1) (l : List K) (nSamples : K) (n : ℕ) (g g' : G)
    (vals : List K) (h : bayesianMeans o l nSamples n g = .ok (vals, g')) :
    vals.length = n ∧ ∀ m ∈ vals, ∀ lo hi, (∀ x ∈ l, lo ≤ x ∧ x ≤ hi) → lo ≤ m ∧ m ≤ hi := by
  induction n generalizing g vals with
  | zero =>
    obtain ⟨rfl, -⟩ := Prod.mk.inj (Except.ok.inj h)
    simp
  | succ n ih =>
    cases l with
    | nil => simp only [bayesianMeans] at h; cases h
    | cons x xs =>
    simp only [bayesianMeans] at h
    by_cases h1 : xs.length = 0
    · rw [if_pos h1] at h; cases h
    rw [if_neg h1] at h
    cases hb : bayesianMeans o (x :: xs) nSamples n (bayesRow o g xs.length ((nSamples - 1) / (xs.length : K))).2 with
    | error e => rw [hb] at h; cases h
    | ok r2 =>
    obtain ⟨ms, g2⟩ := r2
    rw [hb] at h
    simp only at h
    obtain ⟨rfl, rfl⟩ := Prod.mk.inj (Except.ok.inj h)
    obtain ⟨i1, i2⟩ := ih _ ms hb
    refine ⟨by simp [i1], ?_⟩
    intro m hm
    rcases List.mem_cons.mp hm with rfl | hm
    · intro lo hi hbd
      have hw : IsWeights (bayesRow o g xs.length ((nSamples - 1) / (xs.length : K))).1 := by
        unfold bayesRow
        by_cases ha : 0 < (nSamples - 1) / (xs.length : K)
        · rw [if_pos ha]; exact ho _ _ _
        · rw [if_neg ha]
          refine ⟨fun i => by dsimp only; split_ifs <;> norm_num, ?_⟩
          dsimp only
          rw [Finset.sum_ite_eq']
          simp
      obtain ⟨w0, w1⟩ := hw
      rw [List.sum_ofFn]
      constructor
      · calc lo = ∑ i, (bayesRow o g xs.length ((nSamples - 1) / (xs.length : K))).1 i * lo := by rw [← Finset.sum_mul, w1, one_mul]
          _ ≤ _ := Finset.sum_le_sum fun i _ => mul_le_mul_of_nonneg_left (hbd _ (List.getElem_mem _)).1 (w0 i)
      · calc _ ≤ ∑ i, (bayesRow o g xs.length ((nSamples - 1) / (xs.length : K))).1 i * hi :=
            Finset.sum_le_sum fun i _ => mul_le_mul_of_nonneg_left (hbd _ (List.getElem_mem _)).2 (w0 i)
          _ = hi := by rw [← Finset.sum_mul, w1, one_mul]
    · exact i2 m hm

/-- Means of two draws each from 1, 2, 4. -/
example : (bootstrapMeans (exNormal 1) [1, 2, 4] (5 / 2) 3 0).toOption.map Prod.fst = some [3 / 2, 3, 5 / 2] := by decide +kernel

/-- `C37_budget`, `C38_warning_partial` and `C39_bootstrap_means`: ten means of two draws each; then a run of the loop that stops at once. -/
example : ∃ vals g', bootstrapMeans (exNormal 1) [1, 2, 4] 2 10 0 = .ok (vals, g') ∧ vals.length = 10 ∧ (∀ m ∈ vals, 1 ≤ m ∧ m ≤ 4) ∧
    ∃ vals' w g'', sampleUntilNormal (exNormal 1) [1, 2, 4] 2 10 1000 (1 / 1000) 0 = .ok (vals', w, g'') ∧
      (∃ m, vals'.length = 10 + 100 * m) ∧ (w = true ↔ 1000 ≤ vals'.length) := by
  have hb : (bootstrapMeans (exNormal 1) [1, 2, 4] 2 10 0).toOption.isSome = true := by decide +kernel
  cases h : bootstrapMeans (exNormal 1) [1, 2, 4] 2 10 0 with
  | error e => rw [h] at hb; cases hb
  | ok r =>
    obtain ⟨vals, g'⟩ := r
    obtain ⟨h1, h2⟩ := C39_bootstrap_means (exNormal 1) [1, 2, 4] 2 10 0 g' vals h
    have hs : ∃ x, sampleUntilNormal (exNormal 1) [1, 2, 4] 2 10 1000 (1 / 1000) 0 = .ok x := by
      unfold sampleUntilNormal
      rw [h]
      simp only [exNormal, h1]
      rw [untilNormalLoop]
      rw [dif_neg (by simp [pBelow]; norm_num)]
      simp
    obtain ⟨⟨vals', w, g''⟩, hs⟩ := hs
    refine ⟨vals, g', rfl, h1, fun m hm => (h2 m hm).2.2 1 4 (by simp; norm_num), vals', w, g'', hs, ?_,
      (C38_warning_partial _ _ _ _ _ _ _ _ _ _ hs).1⟩
    obtain ⟨⟨m, hm, -⟩, -⟩ := C37_budget _ _ _ _ _ _ _ _ _ _ hs
    exact ⟨m, hm⟩

end Kinisi
