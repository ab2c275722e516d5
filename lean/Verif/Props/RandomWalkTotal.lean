import Verif.Props.RandomWalk

/-!
# Self and collective motion of uncorrelated atoms: C96
-/

set_option linter.unusedSectionVars false
set_option linter.unusedVariables false

namespace Kinisi
open MeasureTheory Spec

variable {Ω : Type} [MeasurableSpace Ω] {G : Type}

theorem pair_mean {μ : Measure Ω} {L : M3 ℝ} {u : Ω → ℕ → ℕ → V3 ℝ} {fw atoms : List ℕ} {T : ℕ}
    (h : UncorrelatedAtoms μ (walkStep L u fw) atoms T) {i i' : ℕ} (hi : i ∈ atoms) (hi' : i' ∈ atoms) (l : Fin 3) {s n : ℕ}
    (hs : s + n ≤ T) :
    Integrable (fun ω => trueMove L (u ω) fw i s (s + n) l * trueMove L (u ω) fw i' s (s + n) l) μ ∧
      (i ≠ i' → ∫ ω, trueMove L (u ω) fw i s (s + n) l * trueMove L (u ω) fw i' s (s + n) l ∂μ = 0) := by
  have e : (fun ω => trueMove L (u ω) fw i s (s + n) l * trueMove L (u ω) fw i' s (s + n) l) =
      fun ω => ∑ j ∈ Finset.range n, ∑ j' ∈ Finset.range n, walkStep L u fw i (s + j) l ω * walkStep L u fw i' (s + j') l ω := by
    funext ω
    rw [trueMove_steps, trueMove_steps, Finset.sum_mul_sum]
  have hint : ∀ j ∈ Finset.range n, ∀ j' ∈ Finset.range n,
      Integrable (fun ω => walkStep L u fw i (s + j) l ω * walkStep L u fw i' (s + j') l ω) μ := fun j hj j' hj' => by
    rw [Finset.mem_range] at hj hj'
    exact h.integrable i hi i' hi' l (s + j) (by omega) (s + j') (by omega)
  constructor
  · rw [e]
    exact integrable_finsetSum _ fun j hj => integrable_finsetSum _ fun j' hj' => hint j hj j' hj'
  · intro hne
    rw [e, integral_finsetSum _ fun j hj => integrable_finsetSum _ fun j' hj' => hint j hj j' hj']
    apply Finset.sum_eq_zero
    intro j hj
    rw [integral_finsetSum _ fun j' hj' => hint j hj j' hj']
    apply Finset.sum_eq_zero
    intro j' hj'
    rw [Finset.mem_range] at hj hj'
    exact h.cross i hi i' hi' hne l (s + j) (by omega) (s + j') (by omega)

theorem total_mean {μ : Measure Ω} {L : M3 ℝ} {u : Ω → ℕ → ℕ → V3 ℝ} {fw atoms : List ℕ} {T : ℕ} {v : ℝ} (hnd : atoms.Nodup)
    (h : UncorrelatedSteps μ (walkStep L u fw) atoms T v) (ha : UncorrelatedAtoms μ (walkStep L u fw) atoms T) (q : ℕ → ℝ)
    (A : Finset (Fin 3)) {s n : ℕ} (hs : s + n ≤ T) :
    Integrable (fun ω => lengthSq A (totalMove L (u ω) fw atoms q s (s + n))) μ ∧
      ∫ ω, lengthSq A (totalMove L (u ω) fw atoms q s (s + n)) ∂μ = (∑ a : Fin atoms.length, q a ^ 2) * (A.card * (n * v)) := by
  have axis : ∀ l, Integrable (fun ω => totalMove L (u ω) fw atoms q s (s + n) l ^ 2) μ ∧
      ∫ ω, totalMove L (u ω) fw atoms q s (s + n) l ^ 2 ∂μ = (∑ a : Fin atoms.length, q a ^ 2) * (n * v) := by
    intro l
    have e : (fun ω => totalMove L (u ω) fw atoms q s (s + n) l ^ 2) = fun ω => ∑ a : Fin atoms.length, ∑ b : Fin atoms.length,
        q a * q b * (trueMove L (u ω) fw atoms[a] s (s + n) l * trueMove L (u ω) fw atoms[b] s (s + n) l) := by
      funext ω
      rw [totalMove, sq, Finset.sum_mul_sum]
      refine Finset.sum_congr rfl fun a _ => Finset.sum_congr rfl fun b _ => ?_
      ring
    have hint : ∀ a b : Fin atoms.length, Integrable (fun ω =>
        q a * q b * (trueMove L (u ω) fw atoms[a] s (s + n) l * trueMove L (u ω) fw atoms[b] s (s + n) l)) μ := fun a b =>
      ((pair_mean ha (List.getElem_mem a.2) (List.getElem_mem b.2) l hs).1).const_mul _
    constructor
    · rw [e]
      exact integrable_finsetSum _ fun a _ => integrable_finsetSum _ fun b _ => hint a b
    · rw [e, integral_finsetSum _ fun a _ => integrable_finsetSum _ fun b _ => hint a b, Finset.sum_mul]
      refine Finset.sum_congr rfl fun a _ => ?_
      rw [integral_finsetSum _ fun b _ => hint a b, Finset.sum_eq_single_of_mem a (Finset.mem_univ a)]
      · rw [integral_const_mul]
        have := (square_mean h (List.getElem_mem a.2) l hs).2
        simp only [sq] at this ⊢
        exact congrArg (fun z => q a * q a * z) this
      · intro b _ hne
        rw [integral_const_mul]
        refine mul_eq_zero_of_right _ ((pair_mean ha (List.getElem_mem a.2) (List.getElem_mem b.2) l hs).2 ?_)
        intro heq
        apply hne
        rw [Fin.ext_iff]
        exact ((List.Nodup.getElem_inj_iff hnd).mp heq).symm
  unfold lengthSq
  refine ⟨integrable_finsetSum _ fun l _ => (axis l).1, ?_⟩
  rw [integral_finsetSum _ fun l _ => (axis l).1, Finset.sum_congr rfl fun l _ => (axis l).2, Finset.sum_const, nsmul_eq_mul]
  ring

/-- The expected value of `reportedTotal`. -/
theorem reportedTotal_mean {μ : Measure Ω} {L : M3 ℝ} {u : Ω → ℕ → ℕ → V3 ℝ} {fw atoms : List ℕ} {F : ℕ} {v : ℝ} (hnd : atoms.Nodup)
    (h : UncorrelatedSteps μ (walkStep L u fw) atoms (F - 1) v) (ha : UncorrelatedAtoms μ (walkStep L u fw) atoms (F - 1)) (q : ℕ → ℝ)
    (A : Finset (Fin 3)) {τ : ℕ} (h1 : 1 ≤ τ) (h2 : τ ≤ F) :
    ∫ ω, reportedTotal A L (u ω) fw atoms q F τ ∂μ =
      (∑ a : Fin atoms.length, q a ^ 2) * (A.card * v * (τ - 1 / ((F - τ + 1 : ℕ) : ℝ))) := by
  have hW : ((F - τ + 1 : ℕ) : ℝ) ≠ 0 := Nat.cast_ne_zero.mpr (Nat.succ_ne_zero _)
  have a := total_mean hnd h ha q A (s := 0) (n := τ - 1) (by omega)
  rw [Nat.zero_add] at a
  have b : ∀ s ∈ Finset.range (F - τ), Integrable (fun ω => lengthSq A (totalMove L (u ω) fw atoms q s (s + τ))) μ ∧
      ∫ ω, lengthSq A (totalMove L (u ω) fw atoms q s (s + τ)) ∂μ = (∑ a : Fin atoms.length, q a ^ 2) * (A.card * (τ * v)) :=
    fun s hs => by
      rw [Finset.mem_range] at hs
      exact total_mean hnd h ha q A (by omega)
  unfold reportedTotal
  rw [integral_div, integral_add a.1 (integrable_finsetSum _ fun s hs => (b s hs).1), a.2, integral_finsetSum _ fun s hs => (b s hs).1,
    Finset.sum_congr rfl fun s hs => (b s hs).2, Finset.sum_const, Finset.card_range, nsmul_eq_mul]
  have e1 : ((τ - 1 : ℕ) : ℝ) = (τ : ℝ) - 1 := by rw [Nat.cast_sub h1]; simp
  have e2 : ((F - τ + 1 : ℕ) : ℝ) = ((F - τ : ℕ) : ℝ) + 1 := by push_cast; ring
  rw [e1]
  rw [e2] at hW ⊢
  field_simp
  ring

/-! ## C96 -/

/-- The analyses `Z` and `Z'` of the same random motion: the points of `Z'` are the first half of the points of `Z`, at the same times,
and the expected value of each is `c` times that of `Z`. -/
def Proportional (μ : Measure Ω) (c : ℝ) (Z Z' : Ω → Analyzer ℝ) : Prop :=
  ∀ ω, (Z' ω).diff.dt = (Z ω).diff.dt.take ((Z ω).diff.dt.length / 2) ∧ (Z' ω).diff.n.length = (Z' ω).diff.dt.length ∧
    ∀ k < (Z' ω).diff.dt.length, ∫ w, ((Z' w).diff.n)[k]?.getD 0 ∂μ = c * ∫ w, ((Z w).diff.n)[k]?.getD 0 ∂μ

theorem proportional_of_parsed {μ : Measure Ω} [IsProbabilityMeasure μ] {L : M3 ℝ} {V : ℝ} {u : Ω → ℕ → ℕ → V3 ℝ} {fw atoms : List ℕ}
    {F : ℕ} {v : ℝ} (hnd : atoms.Nodup) (hw : UncorrelatedSteps μ (walkStep L u fw) atoms (F - 1) v)
    (ha : UncorrelatedAtoms μ (walkStep L u fw) atoms (F - 1)) {nSteps : ℤ} {t : ℕ → ℝ} {Z Z' : Ω → Analyzer ℝ} {I : PyM (List ℤ)}
    {sq : ℝ → ℝ} {o : Oracle ℝ G} {U : UncParams ℝ} (hblock : U.opt.block = false) (hsub : U.sub = 1) {g g' : Ω → G}
    {base : Ω → PyM (Base ℝ)} (h : ∀ ω, diffusionAnalyzer sq o (g ω) U (base ω) = .ok (Z ω, g' ω))
    (hb : ∀ ω B, base ω = .ok B → ∃ taus : List ℕ, I = .ok (taus.map fun τ : ℕ => (τ : ℤ)) ∧
      TrueBase L V (u ω) fw atoms F nSteps t taus B) {q : ℕ → ℝ} {A : Finset (Fin 3)} (hA : A = axesOf U.dimension)
    (h' : ∀ ω B taus, base ω = .ok B → TrueBase L V (u ω) fw atoms F nSteps t taus B →
      (Z' ω).diff.n = ((resolved atoms.length F taus).take ((resolved atoms.length F taus).length / 2)).map
        (reportedTotal A L (u ω) fw atoms q F) ∧
      (Z' ω).diff.dt = ((resolved atoms.length F taus).take ((resolved atoms.length F taus).length / 2)).map t) :
    Proportional μ (∑ a : Fin atoms.length, q a ^ 2) Z Z' := by
  subst hA
  obtain ⟨ω₀⟩ := nonempty_of_isProbabilityMeasure μ
  obtain ⟨B₀, hB₀, -, -⟩ := diffusion_inv (h ω₀)
  obtain ⟨taus, hI, ht₀⟩ := hb ω₀ B₀ hB₀
  have all : ∀ ω, ∃ B, base ω = .ok B ∧ TrueBase L V (u ω) fw atoms F nSteps t taus B := fun ω => by
    obtain ⟨B, hB, -, -⟩ := diffusion_inv (h ω)
    obtain ⟨t', hI', ht⟩ := hb ω B hB
    obtain rfl := map_cast_inj (hI.symm.trans hI')
    exact ⟨B, hB, ht⟩
  have hZ : ∀ ω, (Z ω).diff.n = (resolved atoms.length F taus).map (reportedMsd (axesOf U.dimension) L (u ω) fw atoms F) ∧
      (Z ω).diff.dt = (resolved atoms.length F taus).map t := fun ω => by
    obtain ⟨B, hB, ht⟩ := all ω
    obtain ⟨B', hB', -, hm⟩ := diffusion_inv (h ω)
    obtain rfl := Except.ok.inj (hB.symm.trans hB')
    exact msd_of_parsed ht hblock hsub hm
  have hZ' : ∀ ω, (Z' ω).diff.n = ((resolved atoms.length F taus).take ((resolved atoms.length F taus).length / 2)).map
        (reportedTotal (axesOf U.dimension) L (u ω) fw atoms q F) ∧
      (Z' ω).diff.dt = ((resolved atoms.length F taus).take ((resolved atoms.length F taus).length / 2)).map t := fun ω => by
    obtain ⟨B, hB, ht⟩ := all ω
    exact h' ω B taus hB ht
  generalize hr : resolved atoms.length F taus = r at hZ hZ'
  intro ω
  refine ⟨?_, ?_, ?_⟩
  · rw [(hZ' ω).2, (hZ ω).2, List.length_map, List.map_take]
  · rw [(hZ' ω).1, (hZ' ω).2, List.length_map, List.length_map]
  · intro k hk
    rw [(hZ' ω).2, List.length_map, List.length_take] at hk
    have hk1 : k < r.length / 2 := by omega
    have hk2 : k < r.length := by omega
    have hmem : r[k] ∈ resolved atoms.length F taus := by rw [hr]; exact List.getElem_mem hk2
    unfold resolved at hmem
    obtain ⟨hm, hd⟩ := List.mem_filter.mp hmem
    have hne : atoms ≠ [] := by
      rintro rfl
      simp at hd
    obtain ⟨l1, l2⟩ := ht₀.range _ hm
    have e1 : (fun w => ((Z w).diff.n)[k]?.getD 0) = fun w => reportedMsd (axesOf U.dimension) L (u w) fw atoms F r[k] := by
      funext w
      rw [(hZ w).1, List.getElem?_map, List.getElem?_eq_getElem hk2]
      rfl
    have e2 : (fun w => ((Z' w).diff.n)[k]?.getD 0) = fun w => reportedTotal (axesOf U.dimension) L (u w) fw atoms q F r[k] := by
      funext w
      rw [(hZ' w).1, List.getElem?_map, List.getElem?_take, if_pos hk1, List.getElem?_eq_getElem hk2]
      rfl
    rw [e1, e2, reportedMsd_mean hw hne _ l1 l2, reportedTotal_mean hnd hw ha q _ l1 l2]

/-- **C96, jump diffusion.** The steps of the atoms are uncorrelated in time and between atoms, with the same mean square along every axis.
On average the MSTD is the number of atoms times the MSD of the same interval. -/
theorem C96_mstd (μ : Measure Ω) [IsProbabilityMeasure μ] (E : Num ℝ) (P : Params ℝ) (S : Select ℝ) (sy : List String)
    (atoms fw : List ℕ) (hS : Picks S sy atoms fw) (hnd : atoms.Nodup) (hP : DefaultGrid E P) (F : ℕ) (hF : 2 ≤ F) (L : M3 ℝ) (V : ℝ)
    (u : Ω → ℕ → ℕ → V3 ℝ) (m : Ω → ℕ → ℕ → Fin 3 → ℤ)
    (hstep : ∀ ω, ∀ i < sy.length, ∀ j, j + 1 < F → HalfCell fun k => u ω i (j + 1) k - u ω i j k)
    (v : ℝ) (hw : UncorrelatedSteps μ (walkStep L u fw) atoms (F - 1) v) (ha : UncorrelatedAtoms μ (walkStep L u fw) atoms (F - 1))
    (sq : ℝ → ℝ) (o : Oracle ℝ G) (U : UncParams ℝ) (hblock : U.opt.block = false) (hsub : U.sub = 1)
    (base : Ω → PyM (Base ℝ)) (unit : ℝ) (hbase : ∀ ω, ReadFrom E P S F sy L V (u ω) (m ω) (base ω) unit)
    (g₁ g₁' g₂ g₂' : Ω → G) (Z Z' : Ω → Analyzer ℝ)
    (h : ∀ ω, diffusionAnalyzer sq o (g₁ ω) U (base ω) = .ok (Z ω, g₁' ω))
    (h' : ∀ ω, jumpAnalyzer sq o (g₂ ω) U (base ω) = .ok (Z' ω, g₂' ω)) :
    Proportional μ atoms.length Z Z' := by
  have := proportional_of_parsed hnd hw ha hblock hsub h (fun ω B hB => read_base hS hP hF (hstep ω) (hbase ω) hB) (q := fun _ => 1) rfl
    (Z' := Z') fun ω B taus hB ht => by
      obtain ⟨B', hB', -, hm⟩ := jump_inv (h' ω)
      obtain rfl := Except.ok.inj (hB.symm.trans hB')
      exact mstd_of_parsed ht hblock hsub hm
  simpa using this

/-- **C96, conductivity.** With all three axes, the MSCD is on average the sum of the squared charges times the MSD of the same
interval. -/
theorem C96_mscd (μ : Measure Ω) [IsProbabilityMeasure μ] (E : Num ℝ) (P : Params ℝ) (S : Select ℝ) (sy : List String)
    (atoms fw : List ℕ) (hS : Picks S sy atoms fw) (hnd : atoms.Nodup) (hP : DefaultGrid E P) (F : ℕ) (hF : 2 ≤ F) (L : M3 ℝ) (V : ℝ)
    (u : Ω → ℕ → ℕ → V3 ℝ) (m : Ω → ℕ → ℕ → Fin 3 → ℤ)
    (hstep : ∀ ω, ∀ i < sy.length, ∀ j, j + 1 < F → HalfCell fun k => u ω i (j + 1) k - u ω i j k)
    (v : ℝ) (hw : UncorrelatedSteps μ (walkStep L u fw) atoms (F - 1) v) (ha : UncorrelatedAtoms μ (walkStep L u fw) atoms (F - 1))
    (sq : ℝ → ℝ) (o : Oracle ℝ G) (U : UncParams ℝ) (hblock : U.opt.block = false) (hsub : U.sub = 1) (hd : axesOf U.dimension = Finset.univ)
    (base : Ω → PyM (Base ℝ)) (unit : ℝ) (hbase : ∀ ω, ReadFrom E P S F sy L V (u ω) (m ω) (base ω) unit)
    (charge : Charge ℝ) (hq : ∀ l, charge = .array l → l.length = atoms.length)
    (g₁ g₁' g₂ g₂' : Ω → G) (Z Z' : Ω → Analyzer ℝ)
    (h : ∀ ω, diffusionAnalyzer sq o (g₁ ω) U (base ω) = .ok (Z ω, g₁' ω))
    (h' : ∀ ω, conductivityAnalyzer sq o (g₂ ω) U charge (base ω) = .ok (Z' ω, g₂' ω)) :
    Proportional μ (∑ a : Fin atoms.length, charge.of a ^ 2) Z Z' :=
  proportional_of_parsed hnd hw ha hblock hsub h (fun ω B hB => read_base hS hP hF (hstep ω) (hbase ω) hB) (q := charge.of) hd.symm
    (Z' := Z') fun ω B taus hB ht => by
      obtain ⟨B', hB', -, hm⟩ := conductivity_inv (h' ω)
      obtain rfl := Except.ok.inj (hB.symm.trans hB')
      exact mscd_of_parsed ht hq hblock hsub hm

/-! ### Two atoms that step independently -/

/-- Atoms 0 and 1 each make one step of a quarter of the cell to either side, along every axis; atom 2 rests. -/
noncomputable def exPair (ω : Bool × Bool) (i j : ℕ) : V3 ℝ := fun _ =>
  if 1 ≤ j then (if i = 0 then exSign ω.1 else if i = 1 then exSign ω.2 else 0) else 0

theorem exPairStep (i j : ℕ) (l : Fin 3) (ω : Bool × Bool) (hi : i ∈ [0, 1]) (hj : j < 1) :
    walkStep exCube exPair [2] i j l ω = if i = 0 then exSign ω.1 else exSign ω.2 := by
  have hc : ∀ s : V3 ℝ, cart exCube s l = s l := by
    intro s
    unfold cart exCube
    simp
  obtain rfl : j = 0 := by omega
  simp only [walkStep, trueMove, meanOver, hc, exPair]
  simp only [List.mem_cons, List.not_mem_nil, or_false] at hi
  rcases hi with rfl | rfl <;> simp

theorem exPair_steps : UncorrelatedSteps exCoins (walkStep exCube exPair [2]) [0, 1] 1 (1 / 16) := by
  have hi : ∀ f : Bool × Bool → ℝ, Integrable f exCoins := fun f => Integrable.of_finite
  constructor
  · intros; exact hi _
  · intro i h0 l j hj
    rw [exCoins_integral]
    simp only [exPairStep i j l _ h0 hj, exSign]
    simp only [List.mem_cons, List.not_mem_nil, or_false] at h0
    rcases h0 with rfl | rfl <;> norm_num
  · intro i h0 l j hj j' hj' hne
    omega

theorem exPair_atoms : UncorrelatedAtoms exCoins (walkStep exCube exPair [2]) [0, 1] 1 := by
  have hi : ∀ f : Bool × Bool → ℝ, Integrable f exCoins := fun f => Integrable.of_finite
  constructor
  · intros; exact hi _
  · intro i h0 i' h0' hne l j hj j' hj'
    rw [exCoins_integral]
    simp only [exPairStep i j l _ h0 hj, exPairStep i' j' l _ h0' hj', exSign]
    simp only [List.mem_cons, List.not_mem_nil, or_false] at h0 h0'
    rcases h0 with rfl | rfl <;> rcases h0' with rfl | rfl <;> first | exact absurd rfl hne | norm_num

theorem exPair_half : ∀ ω, ∀ i < 3, ∀ j, j + 1 < 2 → HalfCell fun k => exPair ω i (j + 1) k - exPair ω i j k := by
  rintro ⟨a, b⟩ i hi j hj k
  obtain rfl : j = 0 := by omega
  simp only [exPair]
  interval_cases i <;> cases a <;> cases b <;> simp [exSign] <;> norm_num

/-- All three analyzers are built for every outcome. -/
theorem exPair_ok (ω : Bool × Bool) : AllAnalyzed 2 id (exOracle ℝ) () exUncR (fromAse exNumR exParamsR exSelectR 1 none
    (.one (wrapped 2 ["Li", "Li", "O"] exCube 1 (exPair ω) fun _ _ _ => 0))) := by
  refine C79_ase exNumR exParamsR exSelectR ["Li"] rfl rfl exGridR (by simp [exParamsR]) 3
    (⟨["Li", "Li", "O"], (List.range 3).map fun i => fun k => exPair ω i 0 k + (((0 : ℤ)) : ℝ), exCube, 1⟩)
    [⟨["Li", "Li", "O"], (List.range 3).map fun i => fun k => exPair ω i 1 k + (((0 : ℤ)) : ℝ), exCube, 1⟩]
    (by simp) ?_ ?_ id (exOracle ℝ) () exUncR (.off rfl rfl) le_rfl (by decide +kernel)
  · intro f hf
    simp only [List.mem_cons, List.not_mem_nil, or_false] at hf
    rcases hf with rfl | rfl <;> exact ⟨rfl, by simp, exCube_nonsingular, "Li", by simp, by simp⟩
  · simp [exParamsR]
    norm_num

/-- `C96_mstd` and `C96_mscd` for two atoms with independent steps and charges 2 and -1. -/
example : ∃ Z Z' Z'' : Bool × Bool → Analyzer ℝ, Proportional exCoins 2 Z Z' ∧
    Proportional exCoins (∑ a : Fin [0, 1].length, Charge.of (.array [2, -1]) a ^ 2) Z Z'' := by
  choose Z _ hZ _ using fun ω => (exPair_ok ω).1
  choose Z' _ hZ' _ using fun ω => (exPair_ok ω).2.1
  choose Z'' _ hZ'' _ using fun ω => (exPair_ok ω).2.2 (.array [2, -1]) (fun l e => (Charge.array.inj e) ▸ rfl)
  have hs : Picks exSelectR ["Li", "Li", "O"] [0, 1] [2] := .species ["Li"] rfl rfl
  have hr := fun ω => show ReadFrom exNumR exParamsR exSelectR 2 ["Li", "Li", "O"] exCube 1 (exPair ω) (fun _ _ _ => 0) _ 1 from
    .inl ⟨rfl, rfl⟩
  refine ⟨Z, Z', Z'', ?_, ?_⟩
  · exact_mod_cast C96_mstd exCoins exNumR exParamsR exSelectR _ [0, 1] _ hs (by decide) exGridR 2 le_rfl exCube 1 exPair (fun _ _ _ _ => 0) exPair_half
      (1 / 16) exPair_steps exPair_atoms id (exOracle ℝ) exUncR rfl rfl _ 1 hr _ _ _ _ Z Z' hZ hZ'
  · exact C96_mscd exCoins exNumR exParamsR exSelectR _ _ _ hs (by decide) exGridR 2 le_rfl exCube 1 exPair (fun _ _ _ _ => 0) exPair_half
      (1 / 16) exPair_steps exPair_atoms id (exOracle ℝ) exUncR rfl rfl (by decide +kernel) _ 1 hr (.array [2, -1])
      (fun l e => (Charge.array.inj e) ▸ rfl) _ _ _ _ Z Z'' hZ hZ''

end Kinisi
