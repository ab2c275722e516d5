import Verif.Props.ErrorBarPool

/-!
# C162: pooling independent trajectories for the jump diffusion coefficient and the conductivity

The displacements of pooled trajectories (`dtype='identical'`) are stacked along the atom axis, and MSTD and MSCD sum over this axis, hence also over the trajectories.
-/

set_option linter.unusedSectionVars false
set_option linter.unusedVariables false

open MeasureTheory ProbabilityTheory Kinisi.Spec

namespace Kinisi

variable {Ω : Type} [MeasurableSpace Ω] {μ : Measure Ω} [IsProbabilityMeasure μ] {G : Type}

/-- All intervals of a trajectory as it truly moved, in the form that the theorems on the curves ask for. -/
theorem trueBase_of_read {L : M3 ℝ} {u : ℕ → ℕ → V3 ℝ} {fw atoms : List ℕ} (hN : 2 ≤ atoms.length) {F : ℕ} {c : ℝ} {B : Base ℝ} (hB : AllRead L u fw atoms F c B) :
    ∃ V, TrueBase L V u fw atoms F F (fun τ => (τ : ℝ) * c) ((List.range F).map fun i => i + 1) B := by
  obtain ⟨ed, hd, hno, ⟨V, hV⟩, hent⟩ := hB
  refine ⟨V, List.pairwise_lt_range.map _ fun i j hij => by omega, ?_, fun _ => rfl, hV, by rw [ed, List.map_map]; rfl, ?_⟩
  · intro τ hτ
    obtain ⟨i, hi, rfl⟩ := List.mem_map.1 hτ
    rw [List.mem_range] at hi
    omega
  · rw [resolved_pair hN, List.forall₂_iff_get]
    refine ⟨by simp [hd], fun i h1 h2 => ?_⟩
    obtain ⟨a, k0, ha, -⟩ := hent i (by omega)
    have : B.disp3d.get ⟨i, h2⟩ = a := by
      rw [List.get_eq_getElem]
      exact (List.getElem?_eq_some_iff.1 k0).2
    rw [this]
    simpa using ha

theorem half_getElem {f : ℕ → ℝ} {N F τ : ℕ} (hN : 2 ≤ N) (h1 : 1 ≤ τ) (h2 : 2 * τ ≤ F) :
    (((resolved N F ((List.range F).map fun i => i + 1)).take ((resolved N F ((List.range F).map fun i => i + 1)).length / 2)).map f)[τ - 1]? = some (f τ) := by
  rw [resolved_pair hN, List.length_map, List.length_range, List.getElem?_map, List.getElem?_take, if_pos (by omega), List.getElem?_map, List.getElem?_range (by omega)]
  simp only [Option.map_some]
  rw [Nat.sub_add_cancel h1]

/-- The reported total displacement of one trajectory. -/
theorem total_var {Ξ : ℕ × Fin 3 → Ω → ℝ} (h : RandomWalk μ Ξ) {σ : ℝ} (hs : NormalMoments μ Ξ σ) {L : M3 ℝ} {u : Ω → ℕ → ℕ → V3 ℝ} {fw atoms : List ℕ} {q : ℕ → ℝ}
    (hΞ : ∀ j l ω, totalMove L (u ω) fw atoms q j (j + 1) l = Ξ (j, l) ω) (A : Finset (Fin 3)) {F τ : ℕ} (h1 : 1 ≤ τ) (h2 : τ ≤ F) :
    MemLp (fun ω => reportedTotal A L (u ω) fw atoms q F τ) 2 μ ∧
    Var[fun ω => reportedTotal A L (u ω) fw atoms q F τ; μ] = 2 * A.card * σ ^ 4 * windowSum τ (F - τ + 1) / ((F - τ + 1 : ℕ) : ℝ) ^ 2 := by
  have hw := lone_walk h F
  have hm : NormalMoments μ (fun (q : ℕ × ℕ × Fin 3) => Ξ (stepNo F q.1 q.2.1, q.2.2)) σ := ⟨fun i => hs.second _, fun i => hs.fourth _⟩
  have hξ : ∀ i ∈ [0], ∀ j l ω, walkStep unitCell (lonePath F Ξ) [] i j l ω = Ξ (stepNo F i j, l) ω := fun i _ j l ω => lonePath_step F Ξ i j l ω
  obtain ⟨m1, m2⟩ := reportedMsd_var (F := F) hw hm (List.nodup_singleton 0) (by simp) hξ A h1
  simp only [lonePath_reported hΞ A h2, List.length_singleton, Nat.cast_one, one_mul] at m1 m2
  exact ⟨m1, m2⟩

/-- The steps of the sum of `k` walkers. -/
theorem sum_walk {Ξ : ℕ × ℕ × Fin 3 → Ω → ℝ} (h : RandomWalk μ Ξ) {σ : ℝ} (hs : NormalMoments μ Ξ σ) (k : ℕ) :
    RandomWalk μ (fun (q : ℕ × Fin 3) ω => ∑ t ∈ Finset.range k, Ξ (t, q.1, q.2) ω) ∧ NormalMoments μ (fun (q : ℕ × Fin 3) ω => ∑ t ∈ Finset.range k, Ξ (t, q.1, q.2) ω) (Real.sqrt k * σ) := by
  have inj : ∀ q : ℕ × Fin 3, Function.Injective fun t : ℕ => (t, q.1, q.2) := fun q a b e => (Prod.mk.inj e).1
  obtain ⟨w1, w2⟩ := weightedMove_walk h hs (fun _ => 1) (T := fun q : ℕ × Fin 3 => (Finset.range k).image fun t => (t, q.1, q.2)) (by
    intro a b hab
    rw [Finset.disjoint_left]
    intro x hx hy
    obtain ⟨t, -, rfl⟩ := Finset.mem_image.1 hx
    obtain ⟨s, -, e⟩ := Finset.mem_image.1 hy
    exact hab (Prod.ext (Prod.mk.inj (Prod.mk.inj e).2).1.symm (Prod.mk.inj (Prod.mk.inj e).2).2.symm)) (Q := (k : ℝ)) (by
    intro a
    rw [Finset.sum_image fun x _ y _ e => inj a e]
    simp) (Nat.cast_nonneg k)
  have e : (fun a : ℕ × Fin 3 => weightedMove (fun _ => (1 : ℝ)) Ξ ((Finset.range k).image fun t => (t, a.1, a.2))) = fun (q : ℕ × Fin 3) ω => ∑ t ∈ Finset.range k, Ξ (t, q.1, q.2) ω := by
    funext q ω
    unfold weightedMove
    rw [Finset.sum_image fun x _ y _ e => inj q e]
    simp
  rw [e] at w1 w2
  exact ⟨w1, w2⟩

/-- The steps of all atoms of all trajectories, numbered as in the pool. -/
noncomputable def poolStep (L : ℕ → M3 ℝ) (u : Ω → ℕ → ℕ → ℕ → V3 ℝ) (fw atoms : List ℕ) (q : ℕ × ℕ × Fin 3) (ω : Ω) : ℝ :=
  walkStep (L (q.1 / atoms.length)) (fun ω => u ω (q.1 / atoms.length)) fw (atoms.getD (q.1 % atoms.length) 0) q.2.1 q.2.2 ω

theorem poolStep_eq (L : ℕ → M3 ℝ) (u : Ω → ℕ → ℕ → ℕ → V3 ℝ) (fw atoms : List ℕ) (t s : ℕ) (hs : s < atoms.length) (j : ℕ) (l : Fin 3) (ω : Ω) :
    walkStep (L t) (fun ω => u ω t) fw atoms[s] j l ω = poolStep L u fw atoms (t * atoms.length + s, j, l) ω := by
  have e1 : (t * atoms.length + s) / atoms.length = t := by
    rw [Nat.mul_comm, Nat.mul_add_div (by omega), Nat.div_eq_of_lt hs, Nat.add_zero]
  have e2 : (t * atoms.length + s) % atoms.length = s := by
    rw [Nat.mul_comm, Nat.mul_add_mod, Nat.mod_eq_of_lt hs]
  unfold poolStep
  dsimp only
  rw [e1, e2, List.getD_eq_getElem _ _ hs]

/-- The total displacement of the pool is the sum of the total displacements of the trajectories. -/
theorem pool_total_step (L : ℕ → M3 ℝ) (u : Ω → ℕ → ℕ → ℕ → V3 ℝ) (fw atoms : List ℕ) {q Q : ℕ → ℝ} {k : ℕ} (hq : ∀ t < k, ∀ s < atoms.length, Q (t * atoms.length + s) = q s) (j : ℕ) (l : Fin 3) (ω : Ω) :
    totalMove unitCell (poolPath (poolStep L u fw atoms) ω) [] (List.range (k * atoms.length)) Q j (j + 1) l =
      ∑ t ∈ Finset.range k, totalMove (L t) (u ω t) fw atoms q j (j + 1) l := by
  have e1 : totalMove unitCell (poolPath (poolStep L u fw atoms) ω) [] (List.range (k * atoms.length)) Q j (j + 1) l =
      ∑ i : Fin (List.range (k * atoms.length)).length, Q i * poolStep L u fw atoms ((i : ℕ), j, l) ω := by
    unfold totalMove
    refine Finset.sum_congr rfl fun i _ => ?_
    have := poolPath_step (poolStep L u fw atoms) (i : ℕ) j l ω
    unfold walkStep at this
    rw [← this]
    congr 2
    simp
  rw [e1, ← Finset.sum_range (n := (List.range (k * atoms.length)).length) fun i => Q i * poolStep L u fw atoms (i, j, l) ω, List.length_range, sum_blocks]
  refine Finset.sum_congr rfl fun t ht => ?_
  unfold totalMove
  rw [Finset.sum_range]
  refine Finset.sum_congr rfl fun s _ => ?_
  rw [← poolStep_eq L u fw atoms t s s.2 j l ω, hq t (Finset.mem_range.1 ht) s s.2]
  rfl

/-- The mean of the curves of the trajectories is the MSD of one particle per trajectory. -/
theorem mean_of_totals {Ξ : ℕ × ℕ × Fin 3 → Ω → ℝ} {L : ℕ → M3 ℝ} {u : Ω → ℕ → ℕ → ℕ → V3 ℝ} {fw atoms : List ℕ} {q : ℕ → ℝ} {k : ℕ}
    (hΞ : ∀ t < k, ∀ j l ω, totalMove (L t) (u ω t) fw atoms q j (j + 1) l = Ξ (t, j, l) ω) (A : Finset (Fin 3)) (F τ : ℕ) (ω : Ω) :
    (∑ t ∈ Finset.range k, reportedTotal A (L t) (u ω t) fw atoms q F τ) / k = reportedMsd A unitCell (poolPath Ξ ω) [] (List.range k) F τ := by
  have hm : ∀ t < k, ∀ s n, trueMove unitCell (poolPath Ξ ω) [] t s (s + n) = totalMove (L t) (u ω t) fw atoms q s (s + n) := by
    intro t ht s n
    funext l
    rw [trueMove_steps, totalMove_steps (L t) (fun ω => u ω t), Finset.sum_Ico_eq_sum_range, Nat.add_sub_cancel_left]
    exact Finset.sum_congr rfl fun j _ => by rw [poolPath_step, hΞ t ht]
  unfold reportedMsd reportedTotal
  rw [← Finset.sum_div, div_div, List.length_range, mul_comm]
  congr 1
  rw [← List.sum_toFinset _ List.nodup_range, List.toFinset_range]
  refine Finset.sum_congr rfl fun t ht => ?_
  rw [Finset.mem_range] at ht
  have e0 := hm t ht 0 (τ - 1)
  rw [Nat.zero_add] at e0
  rw [e0]
  congr 1
  exact Finset.sum_congr rfl fun s _ => by rw [hm t ht s τ]

/-- Mean and variance of the curve of the pool, of one trajectory and of the mean of the curves of the trajectories. -/
theorem pool_totals {Ξ : ℕ × ℕ × Fin 3 → Ω → ℝ} (h : RandomWalk μ Ξ) {σ : ℝ} (hs : NormalMoments μ Ξ σ) {L : ℕ → M3 ℝ} {u : Ω → ℕ → ℕ → ℕ → V3 ℝ} {fw atoms : List ℕ} {q Q : ℕ → ℝ} {k : ℕ} (hk : 1 ≤ k) (hq : ∀ t < k, ∀ s < atoms.length, Q (t * atoms.length + s) = q s)
    (hΞ : ∀ t < k, ∀ j l ω, totalMove (L t) (u ω t) fw atoms q j (j + 1) l = Ξ (t, j, l) ω) (A : Finset (Fin 3)) {F τ : ℕ} (h1 : 1 ≤ τ) (h2 : 2 * τ ≤ F) :
    let pool := fun ω => reportedTotal A unitCell (poolPath (poolStep L u fw atoms) ω) [] (List.range (k * atoms.length)) Q F τ
    let single := fun (t : ℕ) ω => reportedTotal A (L t) (u ω t) fw atoms q F τ
    MemLp pool 2 μ ∧ (∀ t < k, MemLp (single t) 2 μ ∧ ∫ ω, pool ω ∂μ = k * ∫ ω, single t ω ∂μ ∧ Var[pool; μ] = k ^ 2 * Var[single t; μ]) ∧
    Var[fun ω => (∑ t ∈ Finset.range k, single t ω) / k; μ] * k ^ 3 = Var[pool; μ] ∧ (3 * τ ≤ F → 0 < σ → A.Nonempty → 0 < Var[pool; μ]) := by
  intro pool single
  have hk0 : (0 : ℝ) < k := by exact_mod_cast hk
  have hsq : Real.sqrt k ^ 2 = (k : ℝ) := Real.sq_sqrt hk0.le
  have hsq4 : (Real.sqrt k * σ) ^ 4 = (k : ℝ) ^ 2 * σ ^ 4 := by
    rw [mul_pow, show Real.sqrt k ^ 4 = (Real.sqrt k ^ 2) ^ 2 by ring, hsq]
  obtain ⟨w1, w2⟩ := sum_walk h hs k
  have hp : ∀ j l ω, totalMove unitCell (poolPath (poolStep L u fw atoms) ω) [] (List.range (k * atoms.length)) Q j (j + 1) l = ∑ t ∈ Finset.range k, Ξ (t, j, l) ω := by
    intro j l ω
    rw [pool_total_step L u fw atoms hq]
    exact Finset.sum_congr rfl fun t ht => hΞ t (Finset.mem_range.1 ht) j l ω
  obtain ⟨p1, p2⟩ := total_var w1 w2 hp A h1 (show τ ≤ F by omega)
  have p3 := total_reported_mean w1 w2 hp A h1 (show τ ≤ F by omega)
  have hw : ∀ t : ℕ, RandomWalk μ fun q : ℕ × Fin 3 => Ξ (t, q.1, q.2) := fun t => ⟨h.indep.precomp fun a b e => by
      have := (Prod.mk.inj e).2
      exact Prod.ext (Prod.mk.inj this).1 (Prod.mk.inj this).2, fun i => h.meas _, fun i => h.moment _, fun i => h.mean _⟩
  have hm : ∀ t : ℕ, NormalMoments μ (fun q : ℕ × Fin 3 => Ξ (t, q.1, q.2)) σ := fun t => ⟨fun i => hs.second _, fun i => hs.fourth _⟩
  have hone := fun t (ht : t < k) => total_var (hw t) (hm t) (u := fun ω => u ω t) (hΞ t ht) A h1 (show τ ≤ F by omega)
  have hmean := fun t (ht : t < k) => total_reported_mean (hw t) (hm t) (u := fun ω => u ω t) (hΞ t ht) A h1 (show τ ≤ F by omega)
  rw [hsq4] at p2
  rw [mul_pow, hsq] at p3
  have hW : ((F - τ + 1 : ℕ) : ℝ) ≠ 0 := Nat.cast_ne_zero.2 (by omega)
  have hne : List.range k ≠ [] := by
    rw [Ne, List.range_eq_nil]
    omega
  obtain ⟨-, q2⟩ := reportedMsd_var (F := F) (atoms := List.range k) (fw := []) (L := unitCell) (u := poolPath Ξ) h hs List.nodup_range hne (fun i _ j l ω => poolPath_step Ξ i j l ω) A h1
  refine ⟨p1, fun t ht => ⟨(hone t ht).1, ?_, ?_⟩, ?_, fun h3 hσ hA => ?_⟩
  · rw [p3, hmean t ht]
    ring
  · rw [p2, (hone t ht).2]
    ring
  · have e : (fun ω => (∑ t ∈ Finset.range k, single t ω) / (k : ℝ)) = fun ω => reportedMsd A unitCell (poolPath Ξ ω) [] (List.range k) F τ := funext fun ω => mean_of_totals hΞ A F τ ω
    rw [e, q2, p2, List.length_range]
    field_simp
  · obtain ⟨v1, -⟩ := var_bounds A (Real.sqrt k * σ) Nat.one_pos h1 h3
    rw [Nat.cast_one, one_mul, hsq4, ← p2] at v1
    refine lt_of_lt_of_le ?_ v1
    have : (0 : ℝ) < A.card := by exact_mod_cast Finset.card_pos.2 hA
    have : (0 : ℝ) < F := by exact_mod_cast (by omega : 0 < F)
    have : (0 : ℝ) < τ := by exact_mod_cast h1
    unfold sideBySideVar
    rw [hsq4]
    positivity

/-- The pool as one trajectory, whatever its atoms do. -/
theorem pool_any {E : Num ℝ} {P : Params ℝ} {S : Select ℝ} {sy : List String} {atoms fw : List ℕ} (hS : Picks S sy atoms fw) (hN : 2 ≤ atoms.length) (hP : DefaultGrid E P) {F : ℕ} (hF : 2 ≤ F)
    (hn : (F : ℤ) ≤ P.nSteps) {k : ℕ} (hk : 1 ≤ k) {L : ℕ → M3 ℝ} {V : ℕ → ℝ} {u : Ω → ℕ → ℕ → ℕ → V3 ℝ} {m : ℕ → ℕ → ℕ → Fin 3 → ℤ} {ω : Ω}
    (hstep : ∀ t < k, ∀ i < sy.length, ∀ j, j + 1 < F → HalfCell fun x => u ω t i (j + 1) x - u ω t i j x) {base : PyM (Base ℝ)} {unit : ℝ} (hbase : ReadPool E P S F sy k L V (u ω) m base unit) {B : Base ℝ} (hB : base = .ok B) :
    AllRead unitCell (poolPath (poolStep L u fw atoms) ω) [] (List.range (k * atoms.length)) F (P.stepSkip.val * P.timeStep.val / unit) B := by
  obtain ⟨τ, parse, pj, xs, us, h1, h2, h4, h5⟩ := readPool_parsed hbase hB
  refine pool_read hk (fun t _ s hs j l ω => poolStep_eq L u fw atoms t s hs j l ω) h2 h4 (fun t p ht => ?_) h1
  have htk : t < k := by
    rw [← h4]
    exact (List.getElem?_eq_some_iff.1 ht).1
  exact (single_read hS hN hP hF hn (hstep t htk) (h5 t p ht) rfl).2

/-! ## C162 -/

/-- **C162, jump diffusion.** `k` trajectories of `F` frames, each with its own cell.  Their total displacements, relative to the framework, make independent steps with the moments of a normal distribution, the same in all trajectories; within a trajectory the atoms
may move together in any way.  The MSTD of the pool (`dtype='identical'`), per atom, has the mean of the MSTD per atom of a single trajectory, and exactly its variance: pooling does not make it more precise.  The mean of the MSTDs of separate analyses has a variance that is `k`
times smaller. -/
theorem C162_mstd (μ : Measure Ω) [IsProbabilityMeasure μ] (E : Num ℝ) (P : Params ℝ) (S : Select ℝ) (sy : List String)
    (atoms fw : List ℕ) (hS : Picks S sy atoms fw) (hN : 2 ≤ atoms.length) (hP : DefaultGrid E P) (F : ℕ)
    (hn : (F : ℤ) ≤ P.nSteps) (k : ℕ) (hk : 1 ≤ k) (L : ℕ → M3 ℝ) (V : ℕ → ℝ) (u : Ω → ℕ → ℕ → ℕ → V3 ℝ) (m : Ω → ℕ → ℕ → ℕ → Fin 3 → ℤ)
    (hstep : ∀ ω, ∀ t < k, ∀ i < sy.length, ∀ j, j + 1 < F → HalfCell fun x => u ω t i (j + 1) x - u ω t i j x)
    (Ξ : ℕ × ℕ × Fin 3 → Ω → ℝ) (h : RandomWalk μ Ξ) (σ : ℝ) (hs : NormalMoments μ Ξ σ)
    (hΞ : ∀ t < k, ∀ j l ω, totalMove (L t) (u ω t) fw atoms (fun _ => 1) j (j + 1) l = Ξ (t, j, l) ω)
    (sq : ℝ → ℝ) (o : Oracle ℝ G) (U : UncParams ℝ) (hblock : U.opt.block = false) (hsub : U.sub = 1)
    (base : Ω → PyM (Base ℝ)) (unit : ℝ) (hbase : ∀ ω, ReadPool E P S F sy k L V (u ω) (m ω) (base ω) unit) (g g' : Ω → G)
    (Z : Ω → Analyzer ℝ) (hZ : ∀ ω, jumpAnalyzer sq o (g ω) U (base ω) = .ok (Z ω, g' ω))
    (sep : Ω → ℕ → PyM (Base ℝ)) (hsep : ∀ ω, ∀ t < k, ReadFrom E P S F sy (L t) (V t) (u ω t) (m ω t) (sep ω t) unit) (e e' : Ω → ℕ → G)
    (Y : Ω → ℕ → Analyzer ℝ) (hY : ∀ ω, ∀ t < k, jumpAnalyzer sq o (e ω t) U (sep ω t) = .ok (Y ω t, e' ω t)) (τ : ℕ) (h1 : 1 ≤ τ) (h2 : 2 * τ ≤ F) :
    let N : ℝ := atoms.length
    ∃ (pool : Ω → ℝ) (single : ℕ → Ω → ℝ), (∀ ω, (Z ω).diff.n[τ - 1]? = some (pool ω) ∧ (Z ω).diff.dt[τ - 1]? = some (τ * (P.stepSkip.val * P.timeStep.val / unit))) ∧
      (∀ ω, ∀ t < k, (Y ω t).diff.n[τ - 1]? = some (single t ω) ∧ (Y ω t).diff.dt[τ - 1]? = some (τ * (P.stepSkip.val * P.timeStep.val / unit))) ∧
      MemLp pool 2 μ ∧
      (∀ t < k, MemLp (single t) 2 μ ∧ ∫ ω, pool ω / (k * N) ∂μ = ∫ ω, single t ω / N ∂μ ∧ Var[fun ω => pool ω / (k * N); μ] = Var[fun ω => single t ω / N; μ]) ∧
      k * Var[fun ω => (∑ t ∈ Finset.range k, single t ω / N) / k; μ] = Var[fun ω => pool ω / (k * N); μ] ∧
      (3 * τ ≤ F → 0 < σ → (axesOf U.dimension).Nonempty → 0 < Var[fun ω => pool ω / (k * N); μ]) := by
  intro N
  have hk0 : (0 : ℝ) < k := by exact_mod_cast hk
  have hN0 : (0 : ℝ) < N := by
    show (0 : ℝ) < (atoms.length : ℝ)
    exact_mod_cast (by omega : 0 < atoms.length)
  obtain ⟨p1, p2, p3, p4⟩ := pool_totals h hs hk (Q := fun _ => 1) (fun _ _ _ _ => rfl) hΞ (axesOf U.dimension) h1 h2
  have hsc : ∀ (c : ℝ) (X : Ω → ℝ), Var[fun ω => X ω / c; μ] = Var[X; μ] / c ^ 2 := by
    intro c X
    have : (fun ω => X ω / c) = fun ω => c⁻¹ * X ω := funext fun ω => div_eq_inv_mul _ _
    rw [this, variance_const_mul, inv_pow, div_eq_inv_mul]
  refine ⟨_, _, fun ω => ?_, fun ω t ht => ?_, p1, fun t ht => ⟨(p2 t ht).1, ?_, ?_⟩, ?_, fun h3 hσ hA => ?_⟩
  · obtain ⟨B, hB, -, hm⟩ := jump_inv (hZ ω)
    have hM : 2 ≤ (List.range (k * atoms.length)).length := by
      rw [List.length_range]
      nlinarith
    obtain ⟨V', ht⟩ := trueBase_of_read hM (pool_any hS hN hP (by omega) hn hk (hstep ω) (hbase ω) hB)
    obtain ⟨n1, n2⟩ := mstd_of_parsed ht hblock hsub hm
    exact ⟨by rw [n1]; exact half_getElem hM h1 h2, by rw [n2]; exact half_getElem hM h1 h2⟩
  · obtain ⟨B, hB, -, hm⟩ := jump_inv (hY ω t ht)
    obtain ⟨V', ht'⟩ := trueBase_of_read hN (single_read hS hN hP (by omega) hn (hstep ω t ht) (hsep ω t ht) hB).2
    obtain ⟨n1, n2⟩ := mstd_of_parsed ht' hblock hsub hm
    exact ⟨by rw [n1]; exact half_getElem hN h1 h2, by rw [n2]; exact half_getElem hN h1 h2⟩
  · rw [integral_div, integral_div, (p2 t ht).2.1]
    field_simp
  · rw [hsc, hsc, (p2 t ht).2.2]
    field_simp
  · rw [hsc (k * N), ← p3]
    simp only [← Finset.sum_div]
    have : (fun ω => (∑ t ∈ Finset.range k, reportedTotal (axesOf U.dimension) (L t) (u ω t) fw atoms (fun _ => 1) F τ) / N / (k : ℝ)) =
        fun ω => (∑ t ∈ Finset.range k, reportedTotal (axesOf U.dimension) (L t) (u ω t) fw atoms (fun _ => 1) F τ) / (k : ℝ) / N := funext fun ω => div_right_comm _ _ _
    rw [this, hsc N]
    field_simp
  · rw [hsc]
    exact div_pos (p4 h3 hσ hA) (by positivity)

theorem mstd_atoms {L : M3 ℝ} {u : ℕ → ℕ → V3 ℝ} {fw atoms : List ℕ} {F : ℕ} (hF : 1 ≤ F) {c : ℝ} {B : Base ℝ} (hB : AllRead L u fw atoms F c B) {sq : ℝ → ℝ} {o : Oracle ℝ G} {U : UncParams ℝ} (hsub : U.sub = 1)
    {g g' : G} {b : Boot ℝ} (hm : mstdBootstrap sq o U.opt g B.deltaT B.disp3d B.nO U.sub U.dimension = .ok (b, g')) : ∃ d ds, b.displacements = d :: ds ∧ d.n0 = atoms.length := by
  rw [hsub] at hm
  obtain ⟨b0, q, i1, -, -, -, b1, hs, i3⟩ := mstdBootstrap_inv hm
  obtain ⟨ds, dts, sel, d0, j1, -, -, -, rfl⟩ := bootInit_inv i1
  rw [pyStride_one] at j1
  obtain rfl := Except.ok.inj j1
  obtain ⟨a, k0, ha, -⟩ := hB.entry 0 hF
  have e : b.displacements = B.disp3d := by
    rw [i3]
    exact hs.displacements
  rw [e]
  cases hd : B.disp3d with
  | nil => rw [hd] at k0; cases k0
  | cons d l =>
    rw [hd] at k0
    obtain rfl := Option.some.inj k0
    exact ⟨d, l, rfl, ha.1⟩

/-- **C162, the number of atoms.** The number that `jump_diffusion` divides by is that of the atoms of all trajectories together for a pool, and that of the atoms of one trajectory otherwise. -/
theorem C162_atoms (E : Num ℝ) (P : Params ℝ) (S : Select ℝ) (sy : List String) (atoms fw : List ℕ) (hS : Picks S sy atoms fw) (hN : 2 ≤ atoms.length) (hP : DefaultGrid E P) (F : ℕ) (hF : 2 ≤ F)
    (hn : (F : ℤ) ≤ P.nSteps) (k : ℕ) (hk : 1 ≤ k) (L : ℕ → M3 ℝ) (V : ℕ → ℝ) (u : ℕ → ℕ → ℕ → V3 ℝ) (m : ℕ → ℕ → ℕ → Fin 3 → ℤ)
    (hstep : ∀ t < k, ∀ i < sy.length, ∀ j, j + 1 < F → HalfCell fun x => u t i (j + 1) x - u t i j x) (sq : ℝ → ℝ) (o : Oracle ℝ G) (U : UncParams ℝ) (hsub : U.sub = 1) (unit : ℝ) (g g' : G) (Z : Analyzer ℝ) :
    (∀ base, ReadPool E P S F sy k L V u m base unit → jumpAnalyzer sq o g U base = .ok (Z, g') → ∃ d ds, Z.diff.displacements = d :: ds ∧ d.n0 = k * atoms.length) ∧
    ∀ base, ∀ t < k, ReadFrom E P S F sy (L t) (V t) (u t) (m t) base unit → jumpAnalyzer sq o g U base = .ok (Z, g') → ∃ d ds, Z.diff.displacements = d :: ds ∧ d.n0 = atoms.length := by
  constructor
  · intro base hbase hZ
    obtain ⟨B, hB, -, hm⟩ := jump_inv hZ
    have := mstd_atoms (by omega) (pool_any (Ω := Unit) (ω := ()) (u := fun _ => u) hS hN hP hF hn hk hstep hbase hB) hsub hm
    rwa [List.length_range] at this
  · intro base t ht hbase hZ
    obtain ⟨B, hB, -, hm⟩ := jump_inv hZ
    exact mstd_atoms (by omega) (single_read hS hN hP hF hn (hstep t ht) hbase hB).2 hsub hm

/-- **C162, conductivity.** The same for the MSCD; an array of charges is given to the pool once per trajectory.  The conductivity is the gradient over the volume, and the volume of the pool is that of the first trajectory (C53).  The MSCD of the pool over this volume is on average `k` times that of the first trajectory
by itself: the conductivity grows with the number of trajectories that are pooled. -/
theorem C162_mscd (μ : Measure Ω) [IsProbabilityMeasure μ] (E : Num ℝ) (P : Params ℝ) (S : Select ℝ) (sy : List String)
    (atoms fw : List ℕ) (hS : Picks S sy atoms fw) (hN : 2 ≤ atoms.length) (hP : DefaultGrid E P) (F : ℕ)
    (hn : (F : ℤ) ≤ P.nSteps) (k : ℕ) (hk : 1 ≤ k) (L : ℕ → M3 ℝ) (V : ℕ → ℝ) (u : Ω → ℕ → ℕ → ℕ → V3 ℝ) (m : Ω → ℕ → ℕ → ℕ → Fin 3 → ℤ)
    (hstep : ∀ ω, ∀ t < k, ∀ i < sy.length, ∀ j, j + 1 < F → HalfCell fun x => u ω t i (j + 1) x - u ω t i j x)
    (charge charges : Charge ℝ) (hc : ∀ l, charge = .array l → l.length = atoms.length) (hcs : ∀ l, charges = .array l → l.length = k * atoms.length)
    (hq : ∀ t < k, ∀ s < atoms.length, charges.of (t * atoms.length + s) = charge.of s)
    (Ξ : ℕ × ℕ × Fin 3 → Ω → ℝ) (h : RandomWalk μ Ξ) (σ : ℝ) (hs : NormalMoments μ Ξ σ)
    (hΞ : ∀ t < k, ∀ j l ω, totalMove (L t) (u ω t) fw atoms charge.of j (j + 1) l = Ξ (t, j, l) ω)
    (sq : ℝ → ℝ) (o : Oracle ℝ G) (U : UncParams ℝ) (hblock : U.opt.block = false) (hsub : U.sub = 1)
    (base : Ω → PyM (Base ℝ)) (unit : ℝ) (hbase : ∀ ω, ReadPool E P S F sy k L V (u ω) (m ω) (base ω) unit) (g g' : Ω → G)
    (Z : Ω → Analyzer ℝ) (hZ : ∀ ω, conductivityAnalyzer sq o (g ω) U charges (base ω) = .ok (Z ω, g' ω))
    (sep : Ω → ℕ → PyM (Base ℝ)) (hsep : ∀ ω, ∀ t < k, ReadFrom E P S F sy (L t) (V t) (u ω t) (m ω t) (sep ω t) unit) (e e' : Ω → ℕ → G)
    (Y : Ω → ℕ → Analyzer ℝ) (hY : ∀ ω, ∀ t < k, conductivityAnalyzer sq o (e ω t) U charge (sep ω t) = .ok (Y ω t, e' ω t)) (τ : ℕ) (h1 : 1 ≤ τ) (h2 : 2 * τ ≤ F) :
    ∃ (pool : Ω → ℝ) (single : ℕ → Ω → ℝ), (∀ ω, (Z ω).diff.n[τ - 1]? = some (pool ω) ∧ (Z ω).diff.dt[τ - 1]? = some (τ * (P.stepSkip.val * P.timeStep.val / unit))) ∧
      (∀ ω, ∀ t < k, (Y ω t).diff.n[τ - 1]? = some (single t ω) ∧ (Y ω t).diff.dt[τ - 1]? = some (τ * (P.stepSkip.val * P.timeStep.val / unit))) ∧
      (∀ ω, (Z ω).volume = some (V 0) ∧ (Y ω 0).volume = some (V 0)) ∧ MemLp pool 2 μ ∧
      (∀ t < k, MemLp (single t) 2 μ ∧ ∫ ω, pool ω ∂μ = k * ∫ ω, single t ω ∂μ ∧ Var[pool; μ] = k ^ 2 * Var[single t; μ]) ∧
      k ^ 3 * Var[fun ω => (∑ t ∈ Finset.range k, single t ω) / k; μ] = Var[pool; μ] ∧ (3 * τ ≤ F → 0 < σ → 0 < Var[pool; μ]) := by
  obtain ⟨p1, p2, p3, p4⟩ := pool_totals h hs hk hq hΞ Finset.univ h1 h2
  have hvol : ∀ ω, ∀ t < k, (Y ω t).volume = some (V t) := by
    intro ω t ht
    obtain ⟨B, hB, hZB, hm⟩ := conductivity_inv (hY ω t ht)
    obtain ⟨taus, -, ht'⟩ := read_base hS hP (by omega) (hstep ω t ht) (hsep ω t ht) hB
    show (Y ω t).toBase.volume = _
    rw [hZB, ht'.volume]
  refine ⟨_, _, fun ω => ?_, fun ω t ht => ?_, fun ω => ⟨?_, hvol ω 0 hk⟩, p1, p2, (mul_comm _ _).trans p3, fun h3 hσ => p4 h3 hσ Finset.univ_nonempty⟩
  · obtain ⟨B, hB, -, hm⟩ := conductivity_inv (hZ ω)
    have hM : 2 ≤ (List.range (k * atoms.length)).length := by
      rw [List.length_range]
      nlinarith
    obtain ⟨V', ht⟩ := trueBase_of_read hM (pool_any hS hN hP (by omega) hn hk (hstep ω) (hbase ω) hB)
    obtain ⟨n1, n2⟩ := mscd_of_parsed ht (by rw [List.length_range]; exact hcs) hblock hsub hm
    exact ⟨by rw [n1]; exact half_getElem hM h1 h2, by rw [n2]; exact half_getElem hM h1 h2⟩
  · obtain ⟨B, hB, -, hm⟩ := conductivity_inv (hY ω t ht)
    obtain ⟨V', ht'⟩ := trueBase_of_read hN (single_read hS hN hP (by omega) hn (hstep ω t ht) (hsep ω t ht) hB).2
    obtain ⟨n1, n2⟩ := mscd_of_parsed ht' hc hblock hsub hm
    exact ⟨by rw [n1]; exact half_getElem hN h1 h2, by rw [n2]; exact half_getElem hN h1 h2⟩
  · obtain ⟨B, hB, hZB, hm⟩ := conductivity_inv (hZ ω)
    obtain ⟨τ', parse, pj, xs, us, i1, i2, i4, i5⟩ := readPool_parsed (hbase ω) hB
    have hus : ∀ t p, us[t]? = some p → AllRead (L t) (u ω t) fw atoms F (P.stepSkip.val * P.timeStep.val / unit) (baseOf p) := by
      intro t p ht
      have htk : t < k := by
        rw [← i4]
        exact (List.getElem?_eq_some_iff.1 ht).1
      exact (single_read hS hN hP (by omega) hn (hstep ω t htk) (i5 t p ht) rfl).2
    obtain ⟨u0, others, rfl⟩ : ∃ u0 others, us = u0 :: others := by
      cases us with
      | nil => simp at i4; omega
      | cons a l => exact ⟨a, l, rfl⟩
    obtain ⟨A, hA, -, hV, -⟩ := C53_pool parse pj xs u0 others i2 F _ _ (same_shape hus)
    rw [i1] at hA
    obtain rfl := Except.ok.inj hA
    obtain ⟨taus, -, ht'⟩ := read_base hS hP (by omega) (hstep ω 0 hk) (i5 0 u0 rfl) rfl
    show (Z ω).toBase.volume = _
    rw [hZB, hV]
    exact ht'.volume

/-- The MSD of a trajectory in terms of its steps. -/
theorem msd_by_steps {ξ : ℕ × ℕ × Fin 3 → Ω → ℝ} {L : M3 ℝ} {u : Ω → ℕ → ℕ → V3 ℝ} {fw atoms : List ℕ} (hξ : ∀ s, (hs : s < atoms.length) → ∀ j l ω, walkStep L u fw atoms[s] j l ω = ξ (s, j, l) ω)
    (A : Finset (Fin 3)) (F τ : ℕ) (ω : Ω) : reportedMsd A L (u ω) fw atoms F τ = reportedMsd A unitCell (poolPath ξ ω) [] (List.range atoms.length) F τ := by
  have hm : ∀ s, (hs : s < atoms.length) → ∀ a n, trueMove L (u ω) fw atoms[s] a (a + n) = trueMove unitCell (poolPath ξ ω) [] s a (a + n) := by
    intro s hs a n
    funext l
    rw [trueMove_steps L u, trueMove_steps unitCell (poolPath ξ)]
    exact Finset.sum_congr rfl fun j _ => by rw [poolPath_step, hξ s hs]
  unfold reportedMsd
  rw [List.length_range]
  congr 2
  refine List.ext_getElem (by simp) fun s h1 h2 => ?_
  rw [List.length_map] at h1
  have e0 := hm s h1 0 (τ - 1)
  rw [Nat.zero_add] at e0
  rw [List.getElem_map, List.getElem_map, List.getElem_range, e0]
  congr 1
  exact Finset.sum_congr rfl fun a _ => by rw [hm s h1 a τ]

/-- **C162, the MSD.** For comparison, the same for trajectories of independent atoms and the MSD: the MSD of the pool has the mean of that of a single trajectory, and a variance that is `k` times smaller. -/
theorem C162_msd (μ : Measure Ω) [IsProbabilityMeasure μ] (E : Num ℝ) (P : Params ℝ) (S : Select ℝ) (sy : List String)
    (atoms fw : List ℕ) (hS : Picks S sy atoms fw) (hN : 2 ≤ atoms.length) (hP : DefaultGrid E P) (F : ℕ) (hF : 2 ≤ F)
    (hn : (F : ℤ) ≤ P.nSteps) (k : ℕ) (hk : 1 ≤ k) (L : ℕ → M3 ℝ) (V : ℕ → ℝ) (u : Ω → ℕ → ℕ → ℕ → V3 ℝ) (m : Ω → ℕ → ℕ → ℕ → Fin 3 → ℤ)
    (hstep : ∀ ω, ∀ t < k, ∀ i < sy.length, ∀ j, j + 1 < F → HalfCell fun x => u ω t i (j + 1) x - u ω t i j x)
    (ξ : ℕ × ℕ × Fin 3 → Ω → ℝ) (h : RandomWalk μ ξ) (σ : ℝ) (hs : NormalMoments μ ξ σ)
    (hξ : ∀ t < k, ∀ s, (hs : s < atoms.length) → ∀ j l ω, walkStep (L t) (fun ω => u ω t) fw atoms[s] j l ω = ξ (t * atoms.length + s, j, l) ω)
    (sq : ℝ → ℝ) (o : Oracle ℝ G) (U : UncParams ℝ) (hblock : U.opt.block = false) (hsub : U.sub = 1)
    (base : Ω → PyM (Base ℝ)) (unit : ℝ) (hbase : ∀ ω, ReadPool E P S F sy k L V (u ω) (m ω) (base ω) unit) (g g' : Ω → G)
    (Z : Ω → Analyzer ℝ) (hZ : ∀ ω, diffusionAnalyzer sq o (g ω) U (base ω) = .ok (Z ω, g' ω))
    (sep : Ω → ℕ → PyM (Base ℝ)) (hsep : ∀ ω, ∀ t < k, ReadFrom E P S F sy (L t) (V t) (u ω t) (m ω t) (sep ω t) unit) (e e' : Ω → ℕ → G)
    (Y : Ω → ℕ → Analyzer ℝ) (hY : ∀ ω, ∀ t < k, diffusionAnalyzer sq o (e ω t) U (sep ω t) = .ok (Y ω t, e' ω t)) (τ : ℕ) (h1 : 1 ≤ τ) (h2 : τ ≤ F) :
    ∃ (pool : Ω → ℝ) (single : ℕ → Ω → ℝ), (∀ ω, (Z ω).diff.n[τ - 1]? = some (pool ω) ∧ (Z ω).diff.dt[τ - 1]? = some (τ * (P.stepSkip.val * P.timeStep.val / unit))) ∧
      (∀ ω, ∀ t < k, (Y ω t).diff.n[τ - 1]? = some (single t ω) ∧ (Y ω t).diff.dt[τ - 1]? = some (τ * (P.stepSkip.val * P.timeStep.val / unit))) ∧
      MemLp pool 2 μ ∧ (∀ t < k, MemLp (single t) 2 μ ∧ ∫ ω, pool ω ∂μ = ∫ ω, single t ω ∂μ ∧ k * Var[pool; μ] = Var[single t; μ]) := by
  have hk0 : (0 : ℝ) < k := by exact_mod_cast hk
  have hN0 : (0 : ℝ) < atoms.length := by exact_mod_cast (by omega : 0 < atoms.length)
  have hM : 2 ≤ (List.range (k * atoms.length)).length := by
    rw [List.length_range]
    nlinarith
  have entry : ∀ (N : ℕ) (f : ℕ → ℝ), 2 ≤ N → ((resolved N F ((List.range F).map fun i => i + 1)).map f)[τ - 1]? = some (f τ) := by
    intro N f hN
    rw [resolved_pair hN, List.getElem?_map, List.getElem?_map, List.getElem?_range (by omega)]
    simp only [Option.map_some]
    rw [Nat.sub_add_cancel h1]
  have hsm : StepMoments μ ξ (σ ^ 2) (3 * σ ^ 4) := ⟨fun i => hs.second _, fun i => (hs.fourth _).le⟩
  have hne : List.range (k * atoms.length) ≠ [] := List.ne_nil_of_length_pos (by omega)
  have hne1 : List.range atoms.length ≠ [] := List.ne_nil_of_length_pos (by rw [List.length_range]; omega)
  obtain ⟨p1, p2⟩ := reportedMsd_var (F := F) (fw := []) (L := unitCell) (u := poolPath ξ) h hs List.nodup_range hne (fun i _ j l ω => poolPath_step ξ i j l ω) (axesOf U.dimension) h1
  have p3 := reportedMsd_mean (uncorrelated_of_walk h hsm (fw := []) (L := unitCell) (u := poolPath ξ) (fun i _ j l ω => poolPath_step ξ i j l ω) (F - 1)) hne (axesOf U.dimension) h1 h2
  have hw : ∀ t : ℕ, RandomWalk μ fun q : ℕ × ℕ × Fin 3 => ξ (t * atoms.length + q.1, q.2) := fun t => ⟨h.indep.precomp fun a b e =>
    Prod.ext (Nat.add_left_cancel (Prod.mk.inj e).1) (Prod.mk.inj e).2, fun i => h.meas _, fun i => h.moment _, fun i => h.mean _⟩
  have hm : ∀ t : ℕ, NormalMoments μ (fun q : ℕ × ℕ × Fin 3 => ξ (t * atoms.length + q.1, q.2)) σ := fun t => ⟨fun i => hs.second _, fun i => hs.fourth _⟩
  have hm2 : ∀ t : ℕ, StepMoments μ (fun q : ℕ × ℕ × Fin 3 => ξ (t * atoms.length + q.1, q.2)) (σ ^ 2) (3 * σ ^ 4) := fun t => ⟨fun i => hs.second _, fun i => (hs.fourth _).le⟩
  refine ⟨fun ω => reportedMsd (axesOf U.dimension) unitCell (poolPath ξ ω) [] (List.range (k * atoms.length)) F τ,
    fun t ω => reportedMsd (axesOf U.dimension) unitCell (poolPath (fun q => ξ (t * atoms.length + q.1, q.2)) ω) [] (List.range atoms.length) F τ, fun ω => ?_, fun ω t ht => ?_, p1, fun t ht => ?_⟩
  · obtain ⟨B, hB, -, hm⟩ := diffusion_inv (hZ ω)
    obtain ⟨τ', parse, pj, xs, us, i1, i2, i4, i5⟩ := readPool_parsed (hbase ω) hB
    obtain ⟨V', ht⟩ := trueBase_of_read hM (pool_read hk hξ i2 i4 (fun t p ht => by
      have htk : t < k := by
        rw [← i4]
        exact (List.getElem?_eq_some_iff.1 ht).1
      exact (single_read hS hN hP hF hn (hstep ω t htk) (i5 t p ht) rfl).2) i1)
    obtain ⟨n1, n2⟩ := msd_of_parsed ht hblock hsub hm
    exact ⟨by rw [n1]; exact entry _ _ hM, by rw [n2]; exact entry _ _ hM⟩
  · obtain ⟨B, hB, -, hm⟩ := diffusion_inv (hY ω t ht)
    obtain ⟨V', ht'⟩ := trueBase_of_read hN (single_read hS hN hP hF hn (hstep ω t ht) (hsep ω t ht) hB).2
    obtain ⟨n1, n2⟩ := msd_of_parsed ht' hblock hsub hm
    refine ⟨?_, by rw [n2]; exact entry _ _ hN⟩
    rw [n1, entry _ _ hN]
    exact congrArg some (msd_by_steps (u := fun ω => u ω t) (fun s hs j l ω => hξ t ht s hs j l ω) _ F τ ω)
  · obtain ⟨q1, q2⟩ := reportedMsd_var (F := F) (fw := []) (L := unitCell) (u := poolPath (fun q => ξ (t * atoms.length + q.1, q.2))) (hw t) (hm t) List.nodup_range hne1 (fun i _ j l ω => poolPath_step (fun q => ξ (t * atoms.length + q.1, q.2)) i j l ω) (axesOf U.dimension) h1
    have q3 := reportedMsd_mean (uncorrelated_of_walk (hw t) (hm2 t) (fw := []) (L := unitCell) (u := poolPath (fun q => ξ (t * atoms.length + q.1, q.2))) (fun i _ j l ω => poolPath_step (fun q => ξ (t * atoms.length + q.1, q.2)) i j l ω) (F - 1)) hne1 (axesOf U.dimension) h1 h2
    refine ⟨q1, p3.trans q3.symm, ?_⟩
    rw [p2, q2, List.length_range, List.length_range]
    have hW : ((F - τ + 1 : ℕ) : ℝ) ≠ 0 := Nat.cast_ne_zero.2 (by omega)
    push_cast
    push_cast at hW
    field_simp

/-- **C162, independent atoms.** Trajectories whose atoms all make independent steps are a case of it: their total displacements make independent steps, the same in all trajectories. -/
theorem C162_independent (μ : Measure Ω) [IsProbabilityMeasure μ] (atoms fw : List ℕ) (L : ℕ → M3 ℝ) (u : Ω → ℕ → ℕ → ℕ → V3 ℝ) (q : ℕ → ℝ) (k : ℕ)
    (ξ : ℕ × ℕ × Fin 3 → Ω → ℝ) (h : RandomWalk μ ξ) (σ : ℝ) (hs : NormalMoments μ ξ σ)
    (hξ : ∀ t < k, ∀ s, (hs : s < atoms.length) → ∀ j l ω, walkStep (L t) (fun ω => u ω t) fw atoms[s] j l ω = ξ (t * atoms.length + s, j, l) ω) :
    ∃ Ξ : ℕ × ℕ × Fin 3 → Ω → ℝ, RandomWalk μ Ξ ∧ NormalMoments μ Ξ (Real.sqrt (∑ s ∈ Finset.range atoms.length, q s ^ 2) * σ) ∧
      ∀ t < k, ∀ j l ω, totalMove (L t) (u ω t) fw atoms q j (j + 1) l = Ξ (t, j, l) ω := by
  let T : ℕ × ℕ × Fin 3 → Finset (ℕ × ℕ × Fin 3) := fun q => (Finset.range atoms.length).image fun s => (q.1 * atoms.length + s, q.2)
  have inj : ∀ q : ℕ × ℕ × Fin 3, Function.Injective fun s : ℕ => (q.1 * atoms.length + s, q.2) := fun q a b e => Nat.add_left_cancel (Prod.mk.inj e).1
  obtain ⟨w1, w2⟩ := weightedMove_walk h hs (fun p => q (p.1 % atoms.length)) (T := T) (by
    intro a b hab
    rw [Finset.disjoint_left]
    intro x hx hy
    obtain ⟨s, hs, rfl⟩ := Finset.mem_image.1 hx
    obtain ⟨r, hr, e⟩ := Finset.mem_image.1 hy
    rw [Finset.mem_range] at hs hr
    obtain ⟨e1, e2⟩ := Prod.mk.inj e
    refine hab (Prod.ext ?_ e2.symm)
    have d := congrArg (· / atoms.length) e1
    beta_reduce at d
    rwa [mul_comm, Nat.mul_add_div (by omega), Nat.div_eq_of_lt hr, mul_comm a.1, Nat.mul_add_div (by omega), Nat.div_eq_of_lt hs, Nat.add_zero, Nat.add_zero, eq_comm] at d)
    (Q := ∑ s ∈ Finset.range atoms.length, q s ^ 2) (by
    intro a
    rw [Finset.sum_image fun x _ y _ e => inj a e]
    refine Finset.sum_congr rfl fun s hs => ?_
    rw [Finset.mem_range] at hs
    dsimp only
    rw [mul_comm, Nat.mul_add_mod, Nat.mod_eq_of_lt hs]) (Finset.sum_nonneg fun _ _ => sq_nonneg _)
  refine ⟨_, w1, w2, fun t ht j l ω => ?_⟩
  unfold weightedMove totalMove
  rw [Finset.sum_image fun x _ y _ e => inj (t, j, l) e, Finset.sum_range]
  refine Finset.sum_congr rfl fun s _ => ?_
  dsimp only
  rw [← hξ t ht s s.2 j l ω, mul_comm t, Nat.mul_add_mod, Nat.mod_eq_of_lt s.2]
  rfl

/-- Two trajectories of two atoms and 1000 frames, an interval of 5 frames, ions of the charges 2 and -1.  Per atom the MSTD of the pool has the positive variance of the MSTD of a single trajectory, twice that of the mean of the two.  The MSCD of the pool is on average twice that of a single
trajectory, over the same volume. -/
example : ∃ (J Y : (ℕ × ℕ × Fin 3 → Fin 3) → Analyzer ℝ) (J1 Y1 : (ℕ × ℕ × Fin 3 → Fin 3) → ℕ → Analyzer ℝ),
    (∀ ω, jumpAnalyzer Real.sqrt (exOracle ℝ) () exUncR (fromAse exNumR (exParamsF 1000) exSelectR 1 (some "identical")
      (.several ((List.range 2).map fun t => wrapped 1000 ["Li", "Li", "O"] exCube 1 (exPoolLeaping ω t) fun _ _ _ => 0))) = .ok (J ω, ())) ∧
    (∀ ω t, jumpAnalyzer Real.sqrt (exOracle ℝ) () exUncR (fromAse exNumR (exParamsF 1000) exSelectR 1 none (.one (wrapped 1000 ["Li", "Li", "O"] exCube 1 (exPoolLeaping ω t) fun _ _ _ => 0))) = .ok (J1 ω t, ())) ∧
    (∀ ω, conductivityAnalyzer Real.sqrt (exOracle ℝ) () exUncR (.array [2, -1, 2, -1]) (fromAse exNumR (exParamsF 1000) exSelectR 1 (some "identical")
      (.several ((List.range 2).map fun t => wrapped 1000 ["Li", "Li", "O"] exCube 1 (exPoolLeaping ω t) fun _ _ _ => 0))) = .ok (Y ω, ())) ∧
    (∀ ω t, conductivityAnalyzer Real.sqrt (exOracle ℝ) () exUncR (.array [2, -1]) (fromAse exNumR (exParamsF 1000) exSelectR 1 none
      (.one (wrapped 1000 ["Li", "Li", "O"] exCube 1 (exPoolLeaping ω t) fun _ _ _ => 0))) = .ok (Y1 ω t, ())) ∧
    (∃ (pool : (ℕ × ℕ × Fin 3 → Fin 3) → ℝ) (single : ℕ → (ℕ × ℕ × Fin 3 → Fin 3) → ℝ), (∀ ω, (J ω).diff.n[4]? = some (pool ω)) ∧ (∀ ω, ∀ t < 2, (J1 ω t).diff.n[4]? = some (single t ω)) ∧
      Var[fun ω => pool ω / 4; exLeaps] = Var[fun ω => single 0 ω / 2; exLeaps] ∧ 0 < Var[fun ω => pool ω / 4; exLeaps] ∧
      2 * Var[fun ω => (single 0 ω / 2 + single 1 ω / 2) / 2; exLeaps] = Var[fun ω => pool ω / 4; exLeaps]) ∧
    ∃ (pool : (ℕ × ℕ × Fin 3 → Fin 3) → ℝ) (single : ℕ → (ℕ × ℕ × Fin 3 → Fin 3) → ℝ), (∀ ω, (Y ω).diff.n[4]? = some (pool ω)) ∧ (∀ ω, ∀ t < 2, (Y1 ω t).diff.n[4]? = some (single t ω)) ∧
      (∀ ω, (Y ω).volume = some 1 ∧ (Y1 ω 0).volume = some 1) ∧ ∫ ω, pool ω ∂exLeaps = 2 * ∫ ω, single 0 ω ∂exLeaps := by
  choose B hB hread using fun ω => exPoolLeaping_read ω 2 1000 (by omega) (by omega)
  have hp : ∀ ω, ∃ b c, mstdBootstrap Real.sqrt (exOracle ℝ) exUncR.opt () (B ω).deltaT (B ω).disp3d (B ω).nO exUncR.sub exUncR.dimension = .ok (b, ()) ∧
      mscdBootstrap Real.sqrt (exOracle ℝ) exUncR.opt () (B ω).deltaT (B ω).disp3d (.array [2, -1, 2, -1]) (B ω).nO exUncR.sub exUncR.dimension = .ok (c, ()) := by
    intro ω
    obtain ⟨-, ⟨b, _, h, -⟩, h3⟩ := analyzers_ok (usable_of_read (by simp) (by omega) (hread ω)) Real.sqrt (exOracle ℝ) () exUncR (.off rfl rfl) le_rfl (by decide +kernel)
    obtain ⟨c, _, h', -⟩ := h3 (.array [2, -1, 2, -1]) (by rintro l ⟨⟩; rfl)
    exact ⟨b, c, h, h'⟩
  choose b c hb hc using hp
  have hs : ∀ (ω : ℕ × ℕ × Fin 3 → Fin 3) (t : ℕ), ∃ Z Y,
      jumpAnalyzer Real.sqrt (exOracle ℝ) () exUncR (fromAse exNumR (exParamsF 1000) exSelectR 1 none (.one (wrapped 1000 ["Li", "Li", "O"] exCube 1 (exPoolLeaping ω t) fun _ _ _ => 0))) = .ok (Z, ()) ∧
      conductivityAnalyzer Real.sqrt (exOracle ℝ) () exUncR (.array [2, -1]) (fromAse exNumR (exParamsF 1000) exSelectR 1 none
        (.one (wrapped 1000 ["Li", "Li", "O"] exCube 1 (exPoolLeaping ω t) fun _ _ _ => 0))) = .ok (Y, ()) := by
    intro ω t
    obtain ⟨-, ⟨Z, _, h, -⟩, h3⟩ := exTwoLeaping_all (fun q => ω (t * 2 + q.1, q.2)) 1000 (by omega)
    obtain ⟨Y, _, hY, -⟩ := h3 (.array [2, -1]) (by rintro l ⟨⟩; rfl)
    exact ⟨Z, Y, h, hY⟩
  choose J1 Y1 hJ1 hY1 using hs
  have hJ : ∀ ω, jumpAnalyzer Real.sqrt (exOracle ℝ) () exUncR (fromAse exNumR (exParamsF 1000) exSelectR 1 (some "identical")
      (.several ((List.range 2).map fun t => wrapped 1000 ["Li", "Li", "O"] exCube 1 (exPoolLeaping ω t) fun _ _ _ => 0))) = .ok (⟨B ω, b ω⟩, ()) := by
    intro ω
    rw [hB ω]
    simp only [jumpAnalyzer, bind, Except.bind]
    rw [hb ω]
  have hY : ∀ ω, conductivityAnalyzer Real.sqrt (exOracle ℝ) () exUncR (.array [2, -1, 2, -1]) (fromAse exNumR (exParamsF 1000) exSelectR 1 (some "identical")
      (.several ((List.range 2).map fun t => wrapped 1000 ["Li", "Li", "O"] exCube 1 (exPoolLeaping ω t) fun _ _ _ => 0))) = .ok (⟨B ω, c ω⟩, ()) := by
    intro ω
    rw [hB ω]
    simp only [conductivityAnalyzer, bind, Except.bind]
    rw [hc ω]
  have hg : DefaultGrid exNumR (exParamsF 1000) := by
    refine ⟨rfl, ?_, rfl, rfl, rfl, rfl⟩
    simp [exParamsF, PyNum.val]
  have hS : Picks exSelectR ["Li", "Li", "O"] [0, 1] [2] := .species ["Li"] rfl rfl
  have hA : (axesOf exUncR.dimension).Nonempty := by decide +kernel
  obtain ⟨Ξ, x1, x2, x3⟩ := C162_independent exLeaps [0, 1] [2] (fun _ => exCube) exPoolLeaping (fun _ => 1) 2 _ exLeaps_walk.1 _ exLeaps_walk.2 fun t _ s hs j l ω => exPoolLeaping_step t s hs j l ω
  obtain ⟨Θ, y1, y2, y3⟩ := C162_independent exLeaps [0, 1] [2] (fun _ => exCube) exPoolLeaping (Charge.array [2, -1] : Charge ℝ).of 2 _ exLeaps_walk.1 _ exLeaps_walk.2 fun t _ s hs j l ω => exPoolLeaping_step t s hs j l ω
  refine ⟨_, _, J1, Y1, hJ, hJ1, hY, hY1, ?_, ?_⟩
  · obtain ⟨pool, single, a1, a2, -, a3, a4, a5⟩ := C162_mstd exLeaps exNumR (exParamsF 1000) exSelectR ["Li", "Li", "O"] [0, 1] [2] hS (by simp) hg 1000 (le_refl _) 2 (by omega) (fun _ => exCube) (fun _ => 1) exPoolLeaping
      (fun _ _ _ _ _ => 0) (fun ω t _ i _ j _ => exTwoLeaping_half _ i j) Ξ x1 _ x2 x3 Real.sqrt (exOracle ℝ) exUncR rfl rfl _ 1 (fun ω => .inl ⟨rfl, rfl⟩) (fun _ => ()) (fun _ => ()) _ hJ
      _ (fun ω t _ => .inl ⟨rfl, rfl⟩) (fun _ _ => ()) (fun _ _ => ()) J1 (fun ω t _ => hJ1 ω t) 5 (by omega) (by omega)
    have e : ((2 : ℕ) : ℝ) * (([0, 1] : List ℕ).length : ℝ) = 4 := by norm_num
    have e2 : (([0, 1] : List ℕ).length : ℝ) = 2 := by norm_num
    rw [e] at a3 a4 a5
    rw [e2] at a3 a4
    have px : 0 < Real.sqrt (∑ s ∈ Finset.range [0, 1].length, (1 : ℝ) ^ 2) * Real.sqrt (1 / 48) := by
      rw [show ∑ s ∈ Finset.range [0, 1].length, (1 : ℝ) ^ 2 = 2 by simp]
      positivity
    simp only [Finset.sum_range_succ, Finset.sum_range_zero, zero_add, Nat.cast_ofNat] at a4
    exact ⟨pool, single, fun ω => (a1 ω).1, fun ω t ht => (a2 ω t ht).1, (a3 0 (by omega)).2.2, a5 (by omega) px hA, a4⟩
  · obtain ⟨pool, single, a1, a2, a3, -, a4, -, -⟩ := C162_mscd exLeaps exNumR (exParamsF 1000) exSelectR ["Li", "Li", "O"] [0, 1] [2] hS (by simp) hg 1000 (le_refl _) 2 (by omega) (fun _ => exCube) (fun _ => 1) exPoolLeaping
      (fun _ _ _ _ _ => 0) (fun ω t _ i _ j _ => exTwoLeaping_half _ i j) (.array [2, -1]) (.array [2, -1, 2, -1]) (by rintro l ⟨⟩; rfl) (by rintro l ⟨⟩; rfl)
      (fun t ht s hs => by
        have : s < 2 := hs
        interval_cases t <;> interval_cases s <;> rfl) Θ y1 _ y2 y3 Real.sqrt (exOracle ℝ) exUncR rfl rfl _ 1 (fun ω => .inl ⟨rfl, rfl⟩) (fun _ => ()) (fun _ => ()) _ hY
      _ (fun ω t _ => .inl ⟨rfl, rfl⟩) (fun _ _ => ()) (fun _ _ => ()) Y1 (fun ω t _ => hY1 ω t) 5 (by omega) (by omega)
    exact ⟨pool, single, fun ω => (a1 ω).1, fun ω t ht => (a2 ω t ht).1, a3, (a4 0 (by omega)).2.1⟩

/-- For the MSD of the same two trajectories: half of the variance, for every interval. -/
example : ∃ (Z : (ℕ × ℕ × Fin 3 → Fin 3) → Analyzer ℝ) (Z1 : (ℕ × ℕ × Fin 3 → Fin 3) → ℕ → Analyzer ℝ),
    (∀ ω, diffusionAnalyzer Real.sqrt (exOracle ℝ) () exUncR (fromAse exNumR (exParamsF 1000) exSelectR 1 (some "identical")
      (.several ((List.range 2).map fun t => wrapped 1000 ["Li", "Li", "O"] exCube 1 (exPoolLeaping ω t) fun _ _ _ => 0))) = .ok (Z ω, ())) ∧
    (∀ ω t, diffusionAnalyzer Real.sqrt (exOracle ℝ) () exUncR (fromAse exNumR (exParamsF 1000) exSelectR 1 none (.one (wrapped 1000 ["Li", "Li", "O"] exCube 1 (exPoolLeaping ω t) fun _ _ _ => 0))) = .ok (Z1 ω t, ())) ∧
    ∀ τ, 1 ≤ τ → τ ≤ 1000 → ∃ (pool : (ℕ × ℕ × Fin 3 → Fin 3) → ℝ) (single : ℕ → (ℕ × ℕ × Fin 3 → Fin 3) → ℝ), (∀ ω, (Z ω).diff.n[τ - 1]? = some (pool ω)) ∧ (∀ ω, ∀ t < 2, (Z1 ω t).diff.n[τ - 1]? = some (single t ω)) ∧
      2 * Var[pool; exLeaps] = Var[single 0; exLeaps] := by
  choose B hB hread using fun ω => exPoolLeaping_read ω 2 1000 (by omega) (by omega)
  have hp : ∀ ω, ∃ b, msdBootstrap Real.sqrt (exOracle ℝ) exUncR.opt () (B ω).deltaT (B ω).disp3d (B ω).nO exUncR.sub exUncR.dimension = .ok (b, ()) := by
    intro ω
    obtain ⟨⟨b, _, h, -⟩, -⟩ := analyzers_ok (usable_of_read (by simp) (by omega) (hread ω)) Real.sqrt (exOracle ℝ) () exUncR (.off rfl rfl) le_rfl (by decide +kernel)
    exact ⟨b, h⟩
  choose b hb using hp
  choose Z1 e hZ1 he using fun (ω : ℕ × ℕ × Fin 3 → Fin 3) (t : ℕ) => (exTwoLeaping_all (fun q => ω (t * 2 + q.1, q.2)) 1000 (by omega)).1
  have hZ : ∀ ω, diffusionAnalyzer Real.sqrt (exOracle ℝ) () exUncR (fromAse exNumR (exParamsF 1000) exSelectR 1 (some "identical")
      (.several ((List.range 2).map fun t => wrapped 1000 ["Li", "Li", "O"] exCube 1 (exPoolLeaping ω t) fun _ _ _ => 0))) = .ok (⟨B ω, b ω⟩, ()) := by
    intro ω
    rw [hB ω]
    simp only [diffusionAnalyzer, bind, Except.bind]
    rw [hb ω]
  have hg : DefaultGrid exNumR (exParamsF 1000) := by
    refine ⟨rfl, ?_, rfl, rfl, rfl, rfl⟩
    simp [exParamsF, PyNum.val]
  refine ⟨_, Z1, hZ, hZ1, fun τ h1 h2 => ?_⟩
  obtain ⟨pool, single, a1, a2, -, a3⟩ := C162_msd exLeaps exNumR (exParamsF 1000) exSelectR ["Li", "Li", "O"] [0, 1] [2] (.species ["Li"] rfl rfl) (by simp) hg 1000 (by omega) (le_refl _) 2 (by omega) (fun _ => exCube) (fun _ => 1)
    exPoolLeaping (fun _ _ _ _ _ => 0) (fun ω t _ i _ j _ => exTwoLeaping_half _ i j) _ exLeaps_walk.1 _ exLeaps_walk.2 (fun t _ s hs j l ω => exPoolLeaping_step t s hs j l ω) Real.sqrt (exOracle ℝ) exUncR rfl rfl _ 1
    (fun ω => .inl ⟨rfl, rfl⟩) (fun _ => ()) (fun _ => ()) _ hZ _ (fun ω t _ => .inl ⟨rfl, rfl⟩) (fun _ _ => ()) (fun _ _ => ()) Z1 (fun ω t _ => hZ1 ω t) τ h1 h2
  exact ⟨pool, single, fun ω => (a1 ω).1, fun ω t ht => (a2 ω t ht).1, (a3 0 (by omega)).2.2⟩

/-- The divisor for these two trajectories of two atoms is four. -/
example (ω : ℕ × ℕ × Fin 3 → Fin 3) : ∃ Z : Analyzer ℝ, jumpAnalyzer Real.sqrt (exOracle ℝ) () exUncR (fromAse exNumR (exParamsF 1000) exSelectR 1 (some "identical")
      (.several ((List.range 2).map fun t => wrapped 1000 ["Li", "Li", "O"] exCube 1 (exPoolLeaping ω t) fun _ _ _ => 0))) = .ok (Z, ()) ∧ ∃ d ds, Z.diff.displacements = d :: ds ∧ d.n0 = 4 := by
  obtain ⟨B, hB, hread⟩ := exPoolLeaping_read ω 2 1000 (by omega) (by omega)
  obtain ⟨-, ⟨b, _, hb, -⟩, -⟩ := analyzers_ok (usable_of_read (by simp) (by omega) hread) Real.sqrt (exOracle ℝ) () exUncR (.off rfl rfl) le_rfl (by decide +kernel)
  have hJ : jumpAnalyzer Real.sqrt (exOracle ℝ) () exUncR (fromAse exNumR (exParamsF 1000) exSelectR 1 (some "identical")
      (.several ((List.range 2).map fun t => wrapped 1000 ["Li", "Li", "O"] exCube 1 (exPoolLeaping ω t) fun _ _ _ => 0))) = .ok (⟨B, b⟩, ()) := by
    rw [hB]
    simp only [jumpAnalyzer, bind, Except.bind]
    rw [hb]
  have hg : DefaultGrid exNumR (exParamsF 1000) := by
    refine ⟨rfl, ?_, rfl, rfl, rfl, rfl⟩
    simp [exParamsF, PyNum.val]
  exact ⟨_, hJ, (C162_atoms exNumR (exParamsF 1000) exSelectR ["Li", "Li", "O"] [0, 1] [2] (.species ["Li"] rfl rfl) (by simp) hg 1000 (by omega) (le_refl _) 2 (by omega) (fun _ => exCube) (fun _ => 1)
    (exPoolLeaping ω) (fun _ _ _ _ => 0) (fun t _ i _ j _ => exTwoLeaping_half _ i j) Real.sqrt (exOracle ℝ) exUncR rfl 1 () () _).1 _ (.inl ⟨rfl, rfl⟩) hJ⟩

end Kinisi
