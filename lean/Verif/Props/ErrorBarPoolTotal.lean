import Verif.Props.PoolTotal

/-!
# C163: the error bars of the jump diffusion coefficient and the conductivity of pooled random walks
-/

set_option linter.unusedSectionVars false
set_option linter.unusedVariables false

open MeasureTheory ProbabilityTheory Kinisi.Spec

namespace Kinisi

variable {Ω : Type} [MeasurableSpace Ω] {μ : Measure Ω} [IsProbabilityMeasure μ] {G : Type}

/-- What `MSTDBootstrap` makes of a base object that holds all intervals. -/
theorem lists_of_read_mstd {L : M3 ℝ} {u : ℕ → ℕ → V3 ℝ} {fw atoms : List ℕ} (hN : 2 ≤ atoms.length) {F : ℕ} {c : ℝ} (hc : 0 < c) {B : Base ℝ} (hB : AllRead L u fw atoms F c B)
    {sq : ℝ → ℝ} (hsq : IsSqrt sq) {o : Oracle ℝ G} {U : UncParams ℝ} (hblock : U.opt.block = false) (hsub : U.sub = 1) {g g' : G} {b : Boot ℝ}
    (hm : mstdBootstrap sq o U.opt g B.deltaT B.disp3d B.nO U.sub U.dimension = .ok (b, g')) :
    ((InverseCounts b ∧ Aligned b) ∧ b.v.length = b.n.length ∧ b.n.length = F / 2) ∧ ∀ i < F / 2, ∃ a, TrueWindows L u fw atoms F (i + 1) a ∧ b.dt[i]? = some (((i + 1 : ℕ) : ℝ) * c) ∧
      b.nO[i]? = some ((atoms.length : ℝ) * ((F : ℝ) / ((i + 1 : ℕ) : ℝ))) ∧ b.n[i]? = some (reportedTotal (axesOf U.dimension) L u fw atoms (fun _ => 1) F (i + 1)) ∧
      b.v[i]? = some (some (varOn (Finset.range a.n1) (sqSum (axesOf U.dimension) (fun _ => 1) a) / ((F : ℝ) / ((i + 1 : ℕ) : ℝ)))) := by
  obtain ⟨V, htb⟩ := trueBase_of_read hN hB
  obtain ⟨ed, hd, hno, -, hent⟩ := hB
  have hN0 : (0 : ℝ) < atoms.length := by exact_mod_cast (by omega : 0 < atoms.length)
  obtain ⟨e1, e2⟩ := mstd_of_parsed htb hblock hsub hm
  have hl : b.n.length = F / 2 := by
    rw [e1, resolved_pair hN, List.length_map, List.length_take, List.length_map, List.length_range]
    omega
  have hpos : ∀ n ∈ B.nO, 0 < n := by
    intro n hn
    obtain ⟨i, hi, rfl⟩ := List.mem_iff_getElem.1 hn
    obtain ⟨a, -, -, h⟩ := hent i (by omega)
    rw [(List.getElem?_eq_some_iff.1 h).2]
    have : (0 : ℝ) < F := by exact_mod_cast (by omega : 0 < F)
    positivity
  have hn0 : ∀ a ∈ B.disp3d, a.n0 = atoms.length := by
    intro a ha
    obtain ⟨i, hi, rfl⟩ := List.mem_iff_getElem.1 ha
    obtain ⟨a, k0, h, -⟩ := hent i (by omega)
    rw [(List.getElem?_eq_some_iff.1 k0).2]
    exact h.1
  obtain ⟨-, -, -, -, -, ds, k1, k2⟩ := C32_variance_mstd sq hsq o U.opt hblock _ _ _ _ _ hpos (fun a ha => by rw [hn0 a ha]; omega) _ _ _ hm
  rw [hsub] at k1 hm
  obtain rfl : B.disp3d = ds := Except.ok.inj ((pyStride_one _).symm.trans k1)
  obtain ⟨b0, q', i1, iq, i2, -, b1, -, i3⟩ := mstdBootstrap_inv hm
  have hq' : q' = F / 2 := by rw [← hl, i2.ln]
  obtain ⟨r1, -⟩ := recorded_aligned i1 (iq.trans (Nat.div_le_self _ _)) i2 i3 (κ := (atoms.length : ℝ) * F * c) (by
      intro k t n ht hn
      have hk : k < F := by
        have := (List.getElem?_eq_some_iff.1 hn).1
        omega
      obtain ⟨a, -, -, h⟩ := hent k hk
      rw [h] at hn
      rw [ed, List.getElem?_map, List.getElem?_range hk] at ht
      obtain rfl := Option.some.inj hn
      obtain rfl := Option.some.inj ht
      have : ((k + 1 : ℕ) : ℝ) ≠ 0 := by positivity
      field_simp) hpos (hno.trans hd.symm) (by
      intro t ht
      rw [ed] at ht
      obtain ⟨i, -, rfl⟩ := List.mem_map.1 ht
      positivity) (by
      rw [ed]
      exact List.pairwise_lt_range.map _ fun i j hij => mul_lt_mul_of_pos_right (by exact_mod_cast (by omega : i + 1 < j + 1)) hc)
  refine ⟨⟨r1, by rw [i2.lv, i2.ln], hl⟩, fun i hi => ?_⟩
  obtain ⟨a, k0, ha, h⟩ := hent i (by omega)
  refine ⟨a, ha, ?_, ?_, ?_, ?_⟩
  · rw [e2]
    exact half_getElem (τ := i + 1) hN (by omega) (by omega)
  · rw [i3]
    show (B.nO.take q')[i]? = _
    rw [List.getElem?_take, if_pos (by omega), h]
  · rw [e1]
    exact half_getElem (τ := i + 1) hN (by omega) (by omega)
  · obtain ⟨a', no, s, f1, f2, f3, -⟩ := k2 i (by omega)
    rw [k0] at f1
    rw [h] at f2
    rw [f3, ← Option.some.inj f1, ← Option.some.inj f2, ha.1, mul_div_cancel_left₀ _ hN0.ne']

/-- What `MSCDBootstrap` makes of it. -/
theorem lists_of_read_mscd {L : M3 ℝ} {u : ℕ → ℕ → V3 ℝ} {fw atoms : List ℕ} (hN : 2 ≤ atoms.length) {F : ℕ} {c : ℝ} (hc : 0 < c) {B : Base ℝ} (hB : AllRead L u fw atoms F c B)
    {charge : Charge ℝ} (hq : ∀ l, charge = .array l → l.length = atoms.length)
    {sq : ℝ → ℝ} (hsq : IsSqrt sq) {o : Oracle ℝ G} {U : UncParams ℝ} (hblock : U.opt.block = false) (hsub : U.sub = 1) {g g' : G} {b : Boot ℝ}
    (hm : mscdBootstrap sq o U.opt g B.deltaT B.disp3d charge B.nO U.sub U.dimension = .ok (b, g')) :
    ((InverseCounts b ∧ Aligned b) ∧ b.v.length = b.n.length ∧ b.n.length = F / 2) ∧ ∀ i < F / 2, ∃ a, TrueWindows L u fw atoms F (i + 1) a ∧ b.dt[i]? = some (((i + 1 : ℕ) : ℝ) * c) ∧
      b.nO[i]? = some ((atoms.length : ℝ) * ((F : ℝ) / ((i + 1 : ℕ) : ℝ))) ∧ b.n[i]? = some (reportedTotal Finset.univ L u fw atoms charge.of F (i + 1)) ∧
      b.v[i]? = some (some (varOn (Finset.range a.n1) (sqSum Finset.univ charge.of a) / ((F : ℝ) / ((i + 1 : ℕ) : ℝ)))) := by
  obtain ⟨V, htb⟩ := trueBase_of_read hN hB
  obtain ⟨ed, hd, hno, -, hent⟩ := hB
  have hN0 : (0 : ℝ) < atoms.length := by exact_mod_cast (by omega : 0 < atoms.length)
  obtain ⟨e1, e2⟩ := mscd_of_parsed htb hq hblock hsub hm
  have hl : b.n.length = F / 2 := by
    rw [e1, resolved_pair hN, List.length_map, List.length_take, List.length_map, List.length_range]
    omega
  have hpos : ∀ n ∈ B.nO, 0 < n := by
    intro n hn
    obtain ⟨i, hi, rfl⟩ := List.mem_iff_getElem.1 hn
    obtain ⟨a, -, -, h⟩ := hent i (by omega)
    rw [(List.getElem?_eq_some_iff.1 h).2]
    have : (0 : ℝ) < F := by exact_mod_cast (by omega : 0 < F)
    positivity
  have hn0 : ∀ a ∈ B.disp3d, a.n0 = atoms.length := by
    intro a ha
    obtain ⟨i, hi, rfl⟩ := List.mem_iff_getElem.1 ha
    obtain ⟨a, k0, h, -⟩ := hent i (by omega)
    rw [(List.getElem?_eq_some_iff.1 k0).2]
    exact h.1
  obtain ⟨-, -, -, -, -, ds, k1, k2⟩ := C32_variance_mscd sq hsq o U.opt hblock _ _ _ _ _ _ hpos atoms.length (by omega) hn0 hq _ _ _ hm
  rw [hsub] at k1 hm
  obtain rfl : B.disp3d = ds := Except.ok.inj ((pyStride_one _).symm.trans k1)
  obtain ⟨b0, q', i1, iq, i2, -, b1, -, i3⟩ := mscdBootstrap_inv hm
  have hq' : q' = F / 2 := by rw [← hl, i2.ln]
  obtain ⟨r1, -⟩ := recorded_aligned i1 (iq.trans (Nat.div_le_self _ _)) i2 i3 (κ := (atoms.length : ℝ) * F * c) (by
      intro k t n ht hn
      have hk : k < F := by
        have := (List.getElem?_eq_some_iff.1 hn).1
        omega
      obtain ⟨a, -, -, h⟩ := hent k hk
      rw [h] at hn
      rw [ed, List.getElem?_map, List.getElem?_range hk] at ht
      obtain rfl := Option.some.inj hn
      obtain rfl := Option.some.inj ht
      have : ((k + 1 : ℕ) : ℝ) ≠ 0 := by positivity
      field_simp) hpos (hno.trans hd.symm) (by
      intro t ht
      rw [ed] at ht
      obtain ⟨i, -, rfl⟩ := List.mem_map.1 ht
      positivity) (by
      rw [ed]
      exact List.pairwise_lt_range.map _ fun i j hij => mul_lt_mul_of_pos_right (by exact_mod_cast (by omega : i + 1 < j + 1)) hc)
  refine ⟨⟨r1, by rw [i2.lv, i2.ln], hl⟩, fun i hi => ?_⟩
  obtain ⟨a, k0, ha, h⟩ := hent i (by omega)
  refine ⟨a, ha, ?_, ?_, ?_, ?_⟩
  · rw [e2]
    exact half_getElem (τ := i + 1) hN (by omega) (by omega)
  · rw [i3]
    show (B.nO.take q')[i]? = _
    rw [List.getElem?_take, if_pos (by omega), h]
  · rw [e1]
    exact half_getElem (τ := i + 1) hN (by omega) (by omega)
  · obtain ⟨a', no, s, f1, f2, f3, -⟩ := k2 i (by omega)
    rw [k0] at f1
    rw [h] at f2
    rw [f3, ← Option.some.inj f1, ← Option.some.inj f2, mul_div_cancel_left₀ _ hN0.ne']

/-- **C163, jump diffusion.** The pool of C162, fitted with the random walk model from the interval `r` on without intercept.  The gradient is on average `k` times that of one trajectory, and the variance that is sampled for it is on average at least half of the true variance, and
less than it, at most 57/64 of it apart from `6 / F`, as for a single trajectory (C160). -/
theorem C163_mstd (μ : Measure Ω) [IsProbabilityMeasure μ] (E : Num ℝ) (P : Params ℝ) (S : Select ℝ) (sy : List String)
    (atoms fw : List ℕ) (hS : Picks S sy atoms fw) (hN : 2 ≤ atoms.length) (hP : DefaultGrid E P) (F : ℕ)
    (hn : (F : ℤ) ≤ P.nSteps) (k : ℕ) (hk : 1 ≤ k) (L : ℕ → M3 ℝ) (V : ℕ → ℝ) (u : Ω → ℕ → ℕ → ℕ → V3 ℝ) (m : Ω → ℕ → ℕ → ℕ → Fin 3 → ℤ)
    (hstep : ∀ ω, ∀ t < k, ∀ i < sy.length, ∀ j, j + 1 < F → HalfCell fun x => u ω t i (j + 1) x - u ω t i j x)
    (Ξ : ℕ × ℕ × Fin 3 → Ω → ℝ) (h : RandomWalk μ Ξ) (σ : ℝ) (hs : NormalMoments μ Ξ σ)
    (hΞ : ∀ t < k, ∀ j l ω, totalMove (L t) (u ω t) fw atoms (fun _ => 1) j (j + 1) l = Ξ (t, j, l) ω)
    (sq : ℝ → ℝ) (hsq : IsSqrt sq) (o : Oracle ℝ G) (U : UncParams ℝ) (hblock : U.opt.block = false) (hsub : U.sub = 1)
    (base : Ω → PyM (Base ℝ)) (unit : ℝ) (hbase : ∀ ω, ReadPool E P S F sy k L V (u ω) (m ω) (base ω) unit) (g g' : Ω → G)
    (Z : Ω → Analyzer ℝ) (hZ : ∀ ω, jumpAnalyzer sq o (g ω) U (base ω) = .ok (Z ω, g' ω)) (r : ℕ) (h3 : 3 * (r + 1) ≤ F)
    (lib : Ω → GlsLib ℝ) (hlib : ∀ ω, LeastSquares (lib ω)) (α : Ω → ℝ)
    (hα : ∀ ω, (lib ω).curveFit ((Z ω).diff.nO.drop r) ((Z ω).diff.dt.drop r) ((Z ω).diff.v.drop r) = .ok (α ω)) :
    let c := P.stepSkip.val * P.timeStep.val / unit
    let A : Finset (Fin 3) := axesOf U.dimension
    let γ := fun ω => valuesFrom (Z ω).diff r 0 / timesFrom (Z ω).diff r 0
    let s := fun ω => α ω / (Z ω).diff.nO.getD r 0
    (MemLp γ 2 μ ∧ ∫ ω, γ ω ∂μ = k * (A.card * σ ^ 2 / c * (1 - 1 / ((r + 1) * (F - r))))) ∧
    Integrable s μ ∧ 1 / 2 * Var[γ; μ] ≤ ∫ ω, s ω ∂μ ∧ ∫ ω, s ω ∂μ ≤ (57 / 64 + 6 / F) * Var[γ; μ] ∧ (55 ≤ F → 0 < σ → A.Nonempty → ∫ ω, s ω ∂μ < Var[γ; μ]) := by
  intro c A γ s
  have hk0 : (0 : ℝ) < k := by exact_mod_cast hk
  have hM : 2 ≤ (List.range (k * atoms.length)).length := by
    rw [List.length_range]
    nlinarith
  have hread : ∀ ω, ∃ B, AllRead unitCell (poolPath (poolStep L u fw atoms) ω) [] (List.range (k * atoms.length)) F c B ∧ mstdBootstrap sq o U.opt (g ω) B.deltaT B.disp3d B.nO U.sub U.dimension = .ok ((Z ω).diff, g' ω) := by
    intro ω
    obtain ⟨B, hB, -, hm⟩ := jump_inv (hZ ω)
    exact ⟨B, pool_any hS hN hP (by omega) hn hk (hstep ω) (hbase ω) hB, hm⟩
  obtain ⟨ω₀⟩ := μ.nonempty_of_neZero
  have hc : 0 < c := by
    obtain ⟨B, hB, -, hm⟩ := jump_inv (hZ ω₀)
    obtain ⟨τ, parse, pj, xs, us, i1, i2, i4, i5⟩ := readPool_parsed (hbase ω₀) hB
    have h0 : us[0]? = some (us[0]'(by omega)) := List.getElem?_eq_getElem _
    exact (single_read hS hN hP (by omega) hn (hstep ω₀ 0 hk) (i5 0 _ h0) rfl).1
  choose B hB hm using hread
  have hl := fun ω => lists_of_read_mstd hM hc (hB ω) hsq hblock hsub (hm ω)
  have all := fun ω => (hl ω).2
  have : Nonempty (Arr3 ℝ) := ⟨⟨0, 0, fun _ _ _ => 0⟩⟩
  choose! a ha e2 e3 e1 e4 using all
  obtain ⟨w1, w2⟩ := sum_walk h hs k
  have hp : ∀ j l ω, totalMove unitCell (poolPath (poolStep L u fw atoms) ω) [] (List.range (k * atoms.length)) (fun _ => 1) j (j + 1) l = ∑ t ∈ Finset.range k, Ξ (t, j, l) ω := by
    intro j l ω
    rw [pool_total_step L u fw atoms (q := fun _ => 1) (fun _ _ _ _ => rfl)]
    exact Finset.sum_congr rfl fun t ht => hΞ t (Finset.mem_range.1 ht) j l ω
  obtain ⟨-, ⟨r1, r2⟩, r3, r4, r5, r6⟩ := total_error_bar w1 w2 hp A h3 (by exact_mod_cast (by omega : 0 < (List.range (k * atoms.length)).length)) hc a ha (fun ω => (Z ω).diff) (fun ω => (hl ω).1) e2 e3 e1 e4 lib hlib α hα
  refine ⟨⟨r1, r2.trans ?_⟩, r3, r4, r5, fun f1 f2 f3 => r6 f1 (mul_pos (Real.sqrt_pos.2 hk0) f2) f3⟩
  rw [mul_pow, Real.sq_sqrt hk0.le]
  ring

/-- **C163, conductivity.** The same for the displacements weighted by the charges; an array of charges is given to the pool once per trajectory. -/
theorem C163_mscd (μ : Measure Ω) [IsProbabilityMeasure μ] (E : Num ℝ) (P : Params ℝ) (S : Select ℝ) (sy : List String)
    (atoms fw : List ℕ) (hS : Picks S sy atoms fw) (hN : 2 ≤ atoms.length) (hP : DefaultGrid E P) (F : ℕ)
    (hn : (F : ℤ) ≤ P.nSteps) (k : ℕ) (hk : 1 ≤ k) (L : ℕ → M3 ℝ) (V : ℕ → ℝ) (u : Ω → ℕ → ℕ → ℕ → V3 ℝ) (m : Ω → ℕ → ℕ → ℕ → Fin 3 → ℤ)
    (hstep : ∀ ω, ∀ t < k, ∀ i < sy.length, ∀ j, j + 1 < F → HalfCell fun x => u ω t i (j + 1) x - u ω t i j x)
    (charge charges : Charge ℝ) (hcs : ∀ l, charges = .array l → l.length = k * atoms.length)
    (hq : ∀ t < k, ∀ s < atoms.length, charges.of (t * atoms.length + s) = charge.of s)
    (Ξ : ℕ × ℕ × Fin 3 → Ω → ℝ) (h : RandomWalk μ Ξ) (σ : ℝ) (hs : NormalMoments μ Ξ σ)
    (hΞ : ∀ t < k, ∀ j l ω, totalMove (L t) (u ω t) fw atoms charge.of j (j + 1) l = Ξ (t, j, l) ω)
    (sq : ℝ → ℝ) (hsq : IsSqrt sq) (o : Oracle ℝ G) (U : UncParams ℝ) (hblock : U.opt.block = false) (hsub : U.sub = 1)
    (base : Ω → PyM (Base ℝ)) (unit : ℝ) (hbase : ∀ ω, ReadPool E P S F sy k L V (u ω) (m ω) (base ω) unit) (g g' : Ω → G)
    (Z : Ω → Analyzer ℝ) (hZ : ∀ ω, conductivityAnalyzer sq o (g ω) U charges (base ω) = .ok (Z ω, g' ω)) (r : ℕ) (h3 : 3 * (r + 1) ≤ F)
    (lib : Ω → GlsLib ℝ) (hlib : ∀ ω, LeastSquares (lib ω)) (α : Ω → ℝ)
    (hα : ∀ ω, (lib ω).curveFit ((Z ω).diff.nO.drop r) ((Z ω).diff.dt.drop r) ((Z ω).diff.v.drop r) = .ok (α ω)) :
    let c := P.stepSkip.val * P.timeStep.val / unit
    let A : Finset (Fin 3) := Finset.univ
    let γ := fun ω => valuesFrom (Z ω).diff r 0 / timesFrom (Z ω).diff r 0
    let s := fun ω => α ω / (Z ω).diff.nO.getD r 0
    (MemLp γ 2 μ ∧ ∫ ω, γ ω ∂μ = k * (A.card * σ ^ 2 / c * (1 - 1 / ((r + 1) * (F - r))))) ∧
    Integrable s μ ∧ 1 / 2 * Var[γ; μ] ≤ ∫ ω, s ω ∂μ ∧ ∫ ω, s ω ∂μ ≤ (57 / 64 + 6 / F) * Var[γ; μ] ∧ (55 ≤ F → 0 < σ → A.Nonempty → ∫ ω, s ω ∂μ < Var[γ; μ]) := by
  intro c A γ s
  have hk0 : (0 : ℝ) < k := by exact_mod_cast hk
  have hM : 2 ≤ (List.range (k * atoms.length)).length := by
    rw [List.length_range]
    nlinarith
  have hread : ∀ ω, ∃ B, AllRead unitCell (poolPath (poolStep L u fw atoms) ω) [] (List.range (k * atoms.length)) F c B ∧ mscdBootstrap sq o U.opt (g ω) B.deltaT B.disp3d charges B.nO U.sub U.dimension = .ok ((Z ω).diff, g' ω) := by
    intro ω
    obtain ⟨B, hB, -, hm⟩ := conductivity_inv (hZ ω)
    exact ⟨B, pool_any hS hN hP (by omega) hn hk (hstep ω) (hbase ω) hB, hm⟩
  obtain ⟨ω₀⟩ := μ.nonempty_of_neZero
  have hc : 0 < c := by
    obtain ⟨B, hB, -, hm⟩ := conductivity_inv (hZ ω₀)
    obtain ⟨τ, parse, pj, xs, us, i1, i2, i4, i5⟩ := readPool_parsed (hbase ω₀) hB
    have h0 : us[0]? = some (us[0]'(by omega)) := List.getElem?_eq_getElem _
    exact (single_read hS hN hP (by omega) hn (hstep ω₀ 0 hk) (i5 0 _ h0) rfl).1
  choose B hB hm using hread
  have hl := fun ω => lists_of_read_mscd hM hc (hB ω) (by rw [List.length_range]; exact hcs) hsq hblock hsub (hm ω)
  have all := fun ω => (hl ω).2
  have : Nonempty (Arr3 ℝ) := ⟨⟨0, 0, fun _ _ _ => 0⟩⟩
  choose! a ha e2 e3 e1 e4 using all
  obtain ⟨w1, w2⟩ := sum_walk h hs k
  have hp : ∀ j l ω, totalMove unitCell (poolPath (poolStep L u fw atoms) ω) [] (List.range (k * atoms.length)) charges.of j (j + 1) l = ∑ t ∈ Finset.range k, Ξ (t, j, l) ω := by
    intro j l ω
    rw [pool_total_step L u fw atoms hq]
    exact Finset.sum_congr rfl fun t ht => hΞ t (Finset.mem_range.1 ht) j l ω
  obtain ⟨-, ⟨r1, r2⟩, r3, r4, r5, r6⟩ := total_error_bar w1 w2 hp A h3 (by exact_mod_cast (by omega : 0 < (List.range (k * atoms.length)).length)) hc a ha (fun ω => (Z ω).diff) (fun ω => (hl ω).1) e2 e3 e1 e4 lib hlib α hα
  refine ⟨⟨r1, r2.trans ?_⟩, r3, r4, r5, fun f1 f2 f3 => r6 f1 (mul_pos (Real.sqrt_pos.2 hk0) f2) f3⟩
  rw [mul_pow, Real.sq_sqrt hk0.le]
  ring

/-- Two trajectories of two atoms and 1000 frames, ions of the charges 2 and -1, all intervals from 2 frames on: the variances of the samples are on average at most 9/10 of the true variances of the gradients. -/
example : ∃ J Y : (ℕ × ℕ × Fin 3 → Fin 3) → Analyzer ℝ, ∃ α β : (ℕ × ℕ × Fin 3 → Fin 3) → ℝ,
    (∀ ω, jumpAnalyzer Real.sqrt (exOracle ℝ) () exUncR (fromAse exNumR (exParamsF 1000) exSelectR 1 (some "identical")
      (.several ((List.range 2).map fun t => wrapped 1000 ["Li", "Li", "O"] exCube 1 (exPoolLeaping ω t) fun _ _ _ => 0))) = .ok (J ω, ())) ∧
    (∀ ω, conductivityAnalyzer Real.sqrt (exOracle ℝ) () exUncR (.array [2, -1, 2, -1]) (fromAse exNumR (exParamsF 1000) exSelectR 1 (some "identical")
      (.several ((List.range 2).map fun t => wrapped 1000 ["Li", "Li", "O"] exCube 1 (exPoolLeaping ω t) fun _ _ _ => 0))) = .ok (Y ω, ())) ∧
    (∀ ω, exLsLibR.curveFit ((J ω).diff.nO.drop 1) ((J ω).diff.dt.drop 1) ((J ω).diff.v.drop 1) = .ok (α ω)) ∧
    (∀ ω, exLsLibR.curveFit ((Y ω).diff.nO.drop 1) ((Y ω).diff.dt.drop 1) ((Y ω).diff.v.drop 1) = .ok (β ω)) ∧
    (∫ ω, α ω / (J ω).diff.nO.getD 1 0 ∂exLeaps ≤ 9 / 10 * Var[fun ω => valuesFrom (J ω).diff 1 0 / timesFrom (J ω).diff 1 0; exLeaps] ∧
      ∫ ω, α ω / (J ω).diff.nO.getD 1 0 ∂exLeaps < Var[fun ω => valuesFrom (J ω).diff 1 0 / timesFrom (J ω).diff 1 0; exLeaps]) ∧
    ∫ ω, β ω / (Y ω).diff.nO.getD 1 0 ∂exLeaps ≤ 9 / 10 * Var[fun ω => valuesFrom (Y ω).diff 1 0 / timesFrom (Y ω).diff 1 0; exLeaps] ∧
      ∫ ω, β ω / (Y ω).diff.nO.getD 1 0 ∂exLeaps < Var[fun ω => valuesFrom (Y ω).diff 1 0 / timesFrom (Y ω).diff 1 0; exLeaps] := by
  have hsq : IsSqrt Real.sqrt := fun x hx => ⟨Real.sqrt_nonneg x, Real.sq_sqrt hx⟩
  choose B hB hread using fun ω => exPoolLeaping_read ω 2 1000 (by omega) (by omega)
  have hp : ∀ ω, ∃ b c, mstdBootstrap Real.sqrt (exOracle ℝ) exUncR.opt () (B ω).deltaT (B ω).disp3d (B ω).nO exUncR.sub exUncR.dimension = .ok (b, ()) ∧
      mscdBootstrap Real.sqrt (exOracle ℝ) exUncR.opt () (B ω).deltaT (B ω).disp3d (.array [2, -1, 2, -1]) (B ω).nO exUncR.sub exUncR.dimension = .ok (c, ()) := by
    intro ω
    obtain ⟨-, ⟨b, _, h, -⟩, h3⟩ := analyzers_ok (usable_of_read (by simp) (by omega) (hread ω)) Real.sqrt (exOracle ℝ) () exUncR (.off rfl rfl) le_rfl (by decide +kernel)
    obtain ⟨c, _, h', -⟩ := h3 (.array [2, -1, 2, -1]) (by rintro l ⟨⟩; rfl)
    exact ⟨b, c, h, h'⟩
  choose b c hb hc using hp
  have hJ : ∀ ω, jumpAnalyzer Real.sqrt (exOracle ℝ) () exUncR (fromAse exNumR (exParamsF 1000) exSelectR 1 (some "identical")
      (.several ((List.range 2).map fun t => wrapped 1000 ["Li", "Li", "O"] exCube 1 (exPoolLeaping ω t) fun _ _ _ => 0))) = .ok (⟨B ω, b ω⟩, ()) := by
    intro ω
    rw [hB ω]
    simp only [jumpAnalyzer, bind, Except.bind]
    rw [hb ω]
  have hY : ∀ ω, conductivityAnalyzer Real.sqrt (exOracle ℝ) () exUncR (.array [2, -1, 2, -1]) (fromAse exNumR (exParamsF 1000) exSelectR 1 (some "identical")
      (.several ((List.range 2).map fun t => wrapped 1000 ["Li", "Li", "O"] exCube 1 (exPoolLeaping ω t) fun _ _ _ => 0))) = .ok (⟨B ω, c ω⟩, ()) := by
    intro ω
    rw [hB ω]
    simp only [conductivityAnalyzer, bind, Except.bind]
    rw [hc ω]
  have hg : DefaultGrid exNumR (exParamsF 1000) := by
    refine ⟨rfl, ?_, rfl, rfl, rfl, rfl⟩
    simp [exParamsF, PyNum.val]
  have hS : Picks exSelectR ["Li", "Li", "O"] [0, 1] [2] := .species ["Li"] rfl rfl
  have hA : (axesOf exUncR.dimension).Nonempty := by decide +kernel
  obtain ⟨Ξ, x1, x2, x3⟩ := C162_independent exLeaps [0, 1] [2] (fun _ => exCube) exPoolLeaping (fun _ => 1) 2 _ exLeaps_walk.1 _ exLeaps_walk.2 fun t _ s hs j l ω => exPoolLeaping_step t s hs j l ω
  obtain ⟨Θ, y1, y2, y3⟩ := C162_independent exLeaps [0, 1] [2] (fun _ => exCube) exPoolLeaping (Charge.array [2, -1] : Charge ℝ).of 2 _ exLeaps_walk.1 _ exLeaps_walk.2 fun t _ s hs j l ω =>
    exPoolLeaping_step t s hs j l ω
  have px : 0 < Real.sqrt (∑ s ∈ Finset.range [0, 1].length, (1 : ℝ) ^ 2) * Real.sqrt (1 / 48) := by
    rw [show ∑ s ∈ Finset.range [0, 1].length, (1 : ℝ) ^ 2 = 2 by simp]
    positivity
  have py : 0 < Real.sqrt (∑ s ∈ Finset.range [0, 1].length, (Charge.array [2, -1] : Charge ℝ).of s ^ 2) * Real.sqrt (1 / 48) := by
    have q0 : (Charge.array [2, -1] : Charge ℝ).of 0 = 2 := rfl
    have q1 : (Charge.array [2, -1] : Charge ℝ).of 1 = -1 := rfl
    rw [show ∑ s ∈ Finset.range [0, 1].length, (Charge.array [2, -1] : Charge ℝ).of s ^ 2 = 5 by
      show ∑ s ∈ Finset.range 2, _ = _
      rw [Finset.sum_range_succ, Finset.sum_range_one, q0, q1]
      norm_num]
    positivity
  have fJ : ∀ ω, ∃ α, exLsLibR.curveFit ((b ω).nO.drop 1) ((b ω).dt.drop 1) ((b ω).v.drop 1) = .ok α := by
    intro ω
    obtain ⟨l1, l2⟩ := lists_of_read_mstd (by simp) two_pos (hread ω) hsq rfl rfl (hb ω)
    refine exHalf_fit (by norm_num) l1 fun i hi => ?_
    obtain ⟨a, -, -, -, -, e⟩ := l2 i hi
    exact ⟨_, e⟩
  have fY : ∀ ω, ∃ α, exLsLibR.curveFit ((c ω).nO.drop 1) ((c ω).dt.drop 1) ((c ω).v.drop 1) = .ok α := by
    intro ω
    obtain ⟨l1, l2⟩ := lists_of_read_mscd (by simp) two_pos (hread ω) (by rintro l ⟨⟩; rfl) hsq rfl rfl (hc ω)
    refine exHalf_fit (by norm_num) l1 fun i hi => ?_
    obtain ⟨a, -, -, -, -, e⟩ := l2 i hi
    exact ⟨_, e⟩
  choose α hα using fJ
  choose β hβ using fY
  obtain ⟨-, -, -, c1, c2⟩ := C163_mstd exLeaps exNumR (exParamsF 1000) exSelectR ["Li", "Li", "O"] [0, 1] [2] hS (by simp) hg 1000 (le_refl _) 2 (by omega) (fun _ => exCube) (fun _ => 1) exPoolLeaping
    (fun _ _ _ _ _ => 0) (fun ω t _ i _ j _ => exTwoLeaping_half _ i j) Ξ x1 _ x2 x3 Real.sqrt hsq (exOracle ℝ) exUncR rfl rfl _ 1 (fun ω => .inl ⟨rfl, rfl⟩) (fun _ => ()) (fun _ => ()) _ hJ 1 (by norm_num)
    (fun _ => exLsLibR) (fun _ => exLsLibR_least) α hα
  obtain ⟨-, -, -, d1, d2⟩ := C163_mscd exLeaps exNumR (exParamsF 1000) exSelectR ["Li", "Li", "O"] [0, 1] [2] hS (by simp) hg 1000 (le_refl _) 2 (by omega) (fun _ => exCube) (fun _ => 1) exPoolLeaping
    (fun _ _ _ _ _ => 0) (fun ω t _ i _ j _ => exTwoLeaping_half _ i j) (.array [2, -1]) (.array [2, -1, 2, -1]) (by rintro l ⟨⟩; rfl)
    (fun t ht s hs => by
      have : s < 2 := hs
      interval_cases t <;> interval_cases s <;> rfl) Θ y1 _ y2 y3 Real.sqrt hsq (exOracle ℝ) exUncR rfl rfl _ 1 (fun ω => .inl ⟨rfl, rfl⟩) (fun _ => ()) (fun _ => ()) _ hY 1 (by norm_num)
    (fun _ => exLsLibR) (fun _ => exLsLibR_least) β hβ
  exact ⟨_, _, α, β, hJ, hY, hα, hβ, ⟨c1.trans (mul_le_mul_of_nonneg_right (by norm_num) (variance_nonneg _ _)), c2 (by norm_num) px hA⟩,
    d1.trans (mul_le_mul_of_nonneg_right (by norm_num) (variance_nonneg _ _)), d2 (by norm_num) py Finset.univ_nonempty⟩

end Kinisi
