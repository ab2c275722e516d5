import Verif.Spec.Statistics
import Verif.Props.EndToEndTotal
import Verif.Props.Totality
import Mathlib.MeasureTheory.Integral.Bochner.Basic

/-!
# The expected MSD of a random walk: C93
-/

set_option linter.unusedSectionVars false
set_option linter.unusedVariables false

namespace Kinisi
open MeasureTheory Spec

variable {Ω : Type} [MeasurableSpace Ω] {G : Type}

/-- The displacement of atom `i` relative to the framework between the frames `j` and `j + 1`, along axis `l`. -/
noncomputable def walkStep (L : M3 ℝ) (u : Ω → ℕ → ℕ → V3 ℝ) (fw : List ℕ) (i j : ℕ) (l : Fin 3) (ω : Ω) : ℝ :=
  trueMove L (u ω) fw i j (j + 1) l

theorem trueMove_split (L : M3 ℝ) (u : ℕ → ℕ → V3 ℝ) (fw : List ℕ) (i a b c : ℕ) (l : Fin 3) :
    trueMove L u fw i a c l = trueMove L u fw i a b l + trueMove L u fw i b c l := by
  have hm : ∀ f g : ℕ → ℝ, (fw.map fun x => f x + g x).sum = (fw.map f).sum + (fw.map g).sum := fun f g => List.sum_map_add
  have e : meanOver fw (fun x => cart L (u x c) l - cart L (u x a) l) =
      meanOver fw (fun x => cart L (u x b) l - cart L (u x a) l) + meanOver fw (fun x => cart L (u x c) l - cart L (u x b) l) := by
    unfold meanOver
    rw [← add_div, ← hm]
    congr 3
    funext x; ring
  simp only [trueMove]
  rw [e]; ring

theorem trueMove_steps (L : M3 ℝ) (u : Ω → ℕ → ℕ → V3 ℝ) (fw : List ℕ) (i s : ℕ) (l : Fin 3) (n : ℕ) (ω : Ω) :
    trueMove L (u ω) fw i s (s + n) l = ∑ j ∈ Finset.range n, walkStep L u fw i (s + j) l ω := by
  induction n with
  | zero =>
    simp only [trueMove, Nat.add_zero, sub_self, Finset.range_zero, Finset.sum_empty, meanOver]
    simp
  | succ n ih =>
    rw [Finset.sum_range_succ, ← ih, ← Nat.add_assoc, trueMove_split L (u ω) fw i s (s + n)]
    rfl

theorem square_mean {μ : Measure Ω} {L : M3 ℝ} {u : Ω → ℕ → ℕ → V3 ℝ} {fw atoms : List ℕ} {T : ℕ} {v : ℝ}
    (h : UncorrelatedSteps μ (walkStep L u fw) atoms T v) {i : ℕ} (hi : i ∈ atoms) (l : Fin 3) {s n : ℕ} (hs : s + n ≤ T) :
    Integrable (fun ω => trueMove L (u ω) fw i s (s + n) l ^ 2) μ ∧
      ∫ ω, trueMove L (u ω) fw i s (s + n) l ^ 2 ∂μ = n * v := by
  have e : (fun ω => trueMove L (u ω) fw i s (s + n) l ^ 2) = fun ω => ∑ j ∈ Finset.range n, ∑ j' ∈ Finset.range n,
      walkStep L u fw i (s + j) l ω * walkStep L u fw i (s + j') l ω := by
    funext ω
    rw [trueMove_steps, sq, Finset.sum_mul_sum]
  have hint : ∀ j ∈ Finset.range n, ∀ j' ∈ Finset.range n,
      Integrable (fun ω => walkStep L u fw i (s + j) l ω * walkStep L u fw i (s + j') l ω) μ := fun j hj j' hj' => by
    rw [Finset.mem_range] at hj hj'
    exact h.integrable i hi l (s + j) (by omega) (s + j') (by omega)
  constructor
  · rw [e]
    exact integrable_finsetSum _ fun j hj => integrable_finsetSum _ fun j' hj' => hint j hj j' hj'
  · rw [e, integral_finsetSum _ fun j hj => integrable_finsetSum _ fun j' hj' => hint j hj j' hj']
    have : ∀ j ∈ Finset.range n, ∫ ω, ∑ j' ∈ Finset.range n, walkStep L u fw i (s + j) l ω * walkStep L u fw i (s + j') l ω ∂μ = v := by
      intro j hj
      rw [integral_finsetSum _ fun j' hj' => hint j hj j' hj', Finset.sum_eq_single_of_mem j hj]
      · rw [Finset.mem_range] at hj
        exact h.square i hi l (s + j) (by omega)
      · intro j' hj' hne
        rw [Finset.mem_range] at hj hj'
        exact h.cross i hi l (s + j) (by omega) (s + j') (by omega) (by omega)
    rw [Finset.sum_congr rfl this, Finset.sum_const, Finset.card_range, nsmul_eq_mul]

theorem lengthSq_mean {μ : Measure Ω} {L : M3 ℝ} {u : Ω → ℕ → ℕ → V3 ℝ} {fw atoms : List ℕ} {T : ℕ} {v : ℝ}
    (h : UncorrelatedSteps μ (walkStep L u fw) atoms T v) {i : ℕ} (hi : i ∈ atoms) (A : Finset (Fin 3)) {s n : ℕ} (hs : s + n ≤ T) :
    Integrable (fun ω => lengthSq A (trueMove L (u ω) fw i s (s + n))) μ ∧
      ∫ ω, lengthSq A (trueMove L (u ω) fw i s (s + n)) ∂μ = A.card * (n * v) := by
  unfold lengthSq
  constructor
  · exact integrable_finsetSum _ fun l _ => (square_mean h hi l hs).1
  · rw [integral_finsetSum _ fun l _ => (square_mean h hi l hs).1, Finset.sum_congr rfl fun l _ => (square_mean h hi l hs).2,
      Finset.sum_const, nsmul_eq_mul]

theorem list_sum_mean {μ : Measure Ω} (f : ℕ → Ω → ℝ) (c : ℝ) (l : List ℕ) (h : ∀ i ∈ l, Integrable (f i) μ ∧ ∫ ω, f i ω ∂μ = c) :
    Integrable (fun ω => (l.map fun i => f i ω).sum) μ ∧ ∫ ω, (l.map fun i => f i ω).sum ∂μ = l.length * c := by
  induction l with
  | nil => simp
  | cons a l ih =>
    obtain ⟨h1, h2⟩ := ih fun i hi => h i (List.mem_cons_of_mem _ hi)
    obtain ⟨h3, h4⟩ := h a (List.mem_cons_self ..)
    simp only [List.map_cons, List.sum_cons]
    refine ⟨h3.add h1, ?_⟩
    rw [integral_add h3 h1, h2, h4]
    simp only [List.length_cons]
    push_cast
    ring

/-- The expected value of `reportedMsd`. -/
theorem reportedMsd_mean {μ : Measure Ω} {L : M3 ℝ} {u : Ω → ℕ → ℕ → V3 ℝ} {fw atoms : List ℕ} {F : ℕ} {v : ℝ}
    (h : UncorrelatedSteps μ (walkStep L u fw) atoms (F - 1) v) (hne : atoms ≠ []) (A : Finset (Fin 3)) {τ : ℕ} (h1 : 1 ≤ τ) (h2 : τ ≤ F) :
    ∫ ω, reportedMsd A L (u ω) fw atoms F τ ∂μ = A.card * v * (τ - 1 / ((F - τ + 1 : ℕ) : ℝ)) := by
  have hN : (atoms.length : ℝ) ≠ 0 := by
    have := List.length_pos_of_ne_nil hne
    exact_mod_cast this.ne'
  have hW : ((F - τ + 1 : ℕ) : ℝ) ≠ 0 := Nat.cast_ne_zero.mpr (Nat.succ_ne_zero _)
  unfold reportedMsd
  rw [integral_div]
  have hterm : ∀ i ∈ atoms, Integrable (fun ω => lengthSq A (trueMove L (u ω) fw i 0 (τ - 1)) +
        ∑ s ∈ Finset.range (F - τ), lengthSq A (trueMove L (u ω) fw i s (s + τ))) μ ∧
      ∫ ω, (lengthSq A (trueMove L (u ω) fw i 0 (τ - 1)) +
        ∑ s ∈ Finset.range (F - τ), lengthSq A (trueMove L (u ω) fw i s (s + τ))) ∂μ =
        A.card * (((τ - 1 : ℕ) : ℝ) * v) + ((F - τ : ℕ) : ℝ) * (A.card * (τ * v)) := by
    intro i hi
    have a := lengthSq_mean h hi A (s := 0) (n := τ - 1) (by omega)
    rw [Nat.zero_add] at a
    have b : ∀ s ∈ Finset.range (F - τ), Integrable (fun ω => lengthSq A (trueMove L (u ω) fw i s (s + τ))) μ ∧
        ∫ ω, lengthSq A (trueMove L (u ω) fw i s (s + τ)) ∂μ = A.card * (τ * v) := fun s hs => by
      rw [Finset.mem_range] at hs
      exact lengthSq_mean h hi A (by omega)
    refine ⟨a.1.add (integrable_finsetSum _ fun s hs => (b s hs).1), ?_⟩
    rw [integral_add a.1 (integrable_finsetSum _ fun s hs => (b s hs).1), a.2, integral_finsetSum _ fun s hs => (b s hs).1,
      Finset.sum_congr rfl fun s hs => (b s hs).2, Finset.sum_const, Finset.card_range, nsmul_eq_mul]
  rw [(list_sum_mean _ _ atoms hterm).2]
  have e1 : ((τ - 1 : ℕ) : ℝ) = (τ : ℝ) - 1 := by rw [Nat.cast_sub h1]; simp
  have e2 : ((F - τ + 1 : ℕ) : ℝ) = ((F - τ : ℕ) : ℝ) + 1 := by push_cast; ring
  rw [e1]
  rw [e2] at hW ⊢
  field_simp
  ring

theorem reportedMsd_integrable {μ : Measure Ω} {L : M3 ℝ} {u : Ω → ℕ → ℕ → V3 ℝ} {fw atoms : List ℕ} {F : ℕ} {v : ℝ}
    (h : UncorrelatedSteps μ (walkStep L u fw) atoms (F - 1) v) (A : Finset (Fin 3)) {τ : ℕ} (h1 : 1 ≤ τ) (h2 : τ ≤ F) :
    Integrable (fun ω => reportedMsd A L (u ω) fw atoms F τ) μ := by
  unfold reportedMsd
  refine Integrable.div_const ?_ _
  have hterm : ∀ i ∈ atoms, Integrable (fun ω => lengthSq A (trueMove L (u ω) fw i 0 (τ - 1)) +
        ∑ s ∈ Finset.range (F - τ), lengthSq A (trueMove L (u ω) fw i s (s + τ))) μ := by
    intro i hi
    have a := lengthSq_mean h hi A (s := 0) (n := τ - 1) (by omega)
    rw [Nat.zero_add] at a
    refine a.1.add (integrable_finsetSum _ fun s hs => ?_)
    rw [Finset.mem_range] at hs
    exact (lengthSq_mean h hi A (by omega)).1
  clear h
  induction atoms with
  | nil => simp
  | cons a l ih =>
    simp only [List.map_cons, List.sum_cons]
    exact (hterm a (List.mem_cons_self ..)).add (ih fun i hi => hterm i (List.mem_cons_of_mem _ hi))

/-- The analyses `Z ω` of a random motion: a time axis that does not depend on chance, and the expected value of the MSD. -/
def ExpectedCurve (μ : Measure Ω) (F : ℕ) (nSteps : ℤ) (N : ℕ) (t : ℕ → ℝ) (mean : ℕ → ℝ) (Z : Ω → Analyzer ℝ) : Prop :=
  ∃ taus : List ℕ, taus.Pairwise (· < ·) ∧ (∀ τ ∈ taus, 1 ≤ τ ∧ τ ≤ F) ∧
    ((F : ℤ) ≤ nSteps → taus = (List.range F).map fun i => i + 1) ∧
    (∀ ω, (Z ω).diff.dt = (resolved N F taus).map t) ∧ (∀ ω, (Z ω).diff.n.length = (resolved N F taus).length) ∧
    ∀ k τ : ℕ, (resolved N F taus)[k]? = some τ → Integrable (fun ω => ((Z ω).diff.n)[k]?.getD 0) μ ∧ ∫ ω, ((Z ω).diff.n)[k]?.getD 0 ∂μ = mean τ

theorem expected_of {μ : Measure Ω} {L : M3 ℝ} {u : Ω → ℕ → ℕ → V3 ℝ} {fw atoms : List ℕ} {F : ℕ} {v : ℝ}
    (hw : UncorrelatedSteps μ (walkStep L u fw) atoms (F - 1) v) (A : Finset (Fin 3)) {nSteps : ℤ} {t : ℕ → ℝ} {Z : Ω → Analyzer ℝ}
    {taus : List ℕ} (h1 : taus.Pairwise (· < ·)) (h2 : ∀ τ ∈ taus, 1 ≤ τ ∧ τ ≤ F)
    (h3 : (F : ℤ) ≤ nSteps → taus = (List.range F).map fun i => i + 1)
    (h4 : ∀ ω, (Z ω).diff.n = (resolved atoms.length F taus).map (reportedMsd A L (u ω) fw atoms F) ∧
      (Z ω).diff.dt = (resolved atoms.length F taus).map t) :
    ExpectedCurve μ F nSteps atoms.length t (fun τ => A.card * v * (τ - 1 / ((F - τ + 1 : ℕ) : ℝ))) Z := by
  refine ⟨taus, h1, h2, h3, fun ω => (h4 ω).2, fun ω => by rw [(h4 ω).1, List.length_map], fun k τ hk => ?_⟩
  have hmem := List.mem_of_getElem? hk
  unfold resolved at hmem
  obtain ⟨hm, hd⟩ := List.mem_filter.mp hmem
  have hne : atoms ≠ [] := by
    rintro rfl
    simp at hd
  have he : (fun ω => ((Z ω).diff.n)[k]?.getD 0) = fun ω => reportedMsd A L (u ω) fw atoms F τ := by
    funext ω
    rw [(h4 ω).1, List.getElem?_map, hk]
    rfl
  rw [he]
  exact ⟨reportedMsd_integrable hw A (h2 τ hm).1 (h2 τ hm).2, reportedMsd_mean hw hne A (h2 τ hm).1 (h2 τ hm).2⟩

theorem expected_of_parsed {μ : Measure Ω} [IsProbabilityMeasure μ] {L : M3 ℝ} {V : ℝ} {u : Ω → ℕ → ℕ → V3 ℝ} {fw atoms : List ℕ} {F : ℕ}
    {v : ℝ} (hw : UncorrelatedSteps μ (walkStep L u fw) atoms (F - 1) v) {nSteps : ℤ} {t : ℕ → ℝ} {Z : Ω → Analyzer ℝ} {I : PyM (List ℤ)}
    {sq : ℝ → ℝ} {o : Oracle ℝ G} {U : UncParams ℝ} (hblock : U.opt.block = false) (hsub : U.sub = 1) {g g' : Ω → G} {base : Ω → PyM (Base ℝ)}
    (h : ∀ ω, diffusionAnalyzer sq o (g ω) U (base ω) = .ok (Z ω, g' ω))
    (hb : ∀ ω B, base ω = .ok B → ∃ taus : List ℕ, I = .ok (taus.map fun τ : ℕ => (τ : ℤ)) ∧
      TrueBase L V (u ω) fw atoms F nSteps t taus B) :
    ExpectedCurve μ F nSteps atoms.length t (fun τ => (axesOf U.dimension).card * v * (τ - 1 / ((F - τ + 1 : ℕ) : ℝ))) Z := by
  obtain ⟨ω₀⟩ := nonempty_of_isProbabilityMeasure μ
  have all : ∀ ω, ∃ taus : List ℕ, I = .ok (taus.map fun τ : ℕ => (τ : ℤ)) ∧ taus.Pairwise (· < ·) ∧ (∀ τ ∈ taus, 1 ≤ τ ∧ τ ≤ F) ∧
      ((F : ℤ) ≤ nSteps → taus = (List.range F).map fun i => i + 1) ∧
      (Z ω).diff.n = (resolved atoms.length F taus).map (reportedMsd (axesOf U.dimension) L (u ω) fw atoms F) ∧
      (Z ω).diff.dt = (resolved atoms.length F taus).map t := by
    intro ω
    obtain ⟨B, hB, hZ, hm⟩ := diffusion_inv (h ω)
    obtain ⟨taus, a0, ht⟩ := hb ω B hB
    exact ⟨taus, a0, ht.sorted, ht.range, ht.full, msd_of_parsed ht hblock hsub hm⟩
  obtain ⟨taus, a0, a1, a2, a3, -⟩ := all ω₀
  refine expected_of hw _ a1 a2 a3 fun ω => ?_
  obtain ⟨t', b0, -, -, -, b4, b5⟩ := all ω
  obtain rfl := map_cast_inj (a0.symm.trans b0)
  exact ⟨b4, b5⟩

/-! ## C93 -/

/-- **C93, what holds (ASE).** The atoms make uncorrelated steps of mean square `v` per axis (relative to the framework).  The expected
value of the MSD reported for an interval of `τ` frames is `d v (τ - 1 / (F - τ + 1))`, `d` the number of axes.  Missing: it should be
`d v τ`. -/
theorem C93_ase_partial (μ : Measure Ω) [IsProbabilityMeasure μ] (E : Num ℝ) (P : Params ℝ) (S : Select ℝ) (sy : List String)
    (atoms fw : List ℕ) (hS : Picks S sy atoms fw) (hP : DefaultGrid E P) (F : ℕ) (hF : 2 ≤ F) (L : M3 ℝ) (V : ℝ)
    (u : Ω → ℕ → ℕ → V3 ℝ) (m : Ω → ℕ → ℕ → Fin 3 → ℤ)
    (hstep : ∀ ω, ∀ i < sy.length, ∀ j, j + 1 < F → HalfCell fun k => u ω i (j + 1) k - u ω i j k)
    (v : ℝ) (hw : UncorrelatedSteps μ (walkStep L u fw) atoms (F - 1) v)
    (sq : ℝ → ℝ) (o : Oracle ℝ G) (U : UncParams ℝ) (hblock : U.opt.block = false) (hsub : U.sub = 1) (g g' : Ω → G) (Z : Ω → Analyzer ℝ)
    (h : ∀ ω, diffusionAnalyzer sq o (g ω) U (fromAse E P S 1 none (.one (wrapped F sy L V (u ω) (m ω)))) = .ok (Z ω, g' ω)) :
    ExpectedCurve μ F P.nSteps atoms.length (fun τ : ℕ => (τ : ℝ) * P.stepSkip.val * P.timeStep.val)
      (fun τ => (axesOf U.dimension).card * v * (τ - 1 / ((F - τ + 1 : ℕ) : ℝ))) Z :=
  expected_of_parsed hw hblock hsub h fun ω B hB => ase_base hS hP hF (hstep ω) hB

/-- **C93, what holds (pymatgen).** -/
theorem C93_pymatgen_partial (μ : Measure Ω) [IsProbabilityMeasure μ] (E : Num ℝ) (P : Params ℝ) (S : Select ℝ) (sy : List String)
    (atoms fw : List ℕ) (hS : Picks S sy atoms fw) (hP : DefaultGrid E P) (F : ℕ) (hF : 2 ≤ F) (L : M3 ℝ) (V : ℝ)
    (u : Ω → ℕ → ℕ → V3 ℝ) (m : Ω → ℕ → ℕ → Fin 3 → ℤ)
    (hstep : ∀ ω, ∀ i < sy.length, ∀ j, j + 1 < F → HalfCell fun k => u ω i (j + 1) k - u ω i j k)
    (v : ℝ) (hw : UncorrelatedSteps μ (walkStep L u fw) atoms (F - 1) v)
    (sq : ℝ → ℝ) (o : Oracle ℝ G) (U : UncParams ℝ) (hblock : U.opt.block = false) (hsub : U.sub = 1) (g g' : Ω → G) (Z : Ω → Analyzer ℝ)
    (h : ∀ ω, diffusionAnalyzer sq o (g ω) U (fromPymatgen E P S 1 none (.one (wrapped F sy L V (u ω) (m ω)))) = .ok (Z ω, g' ω)) :
    ExpectedCurve μ F P.nSteps atoms.length (fun τ : ℕ => (τ : ℝ) * P.stepSkip.val * P.timeStep.val / 1000)
      (fun τ => (axesOf U.dimension).card * v * (τ - 1 / ((F - τ + 1 : ℕ) : ℝ))) Z :=
  expected_of_parsed hw hblock hsub h fun ω B hB => pymatgen_base hS hP hF (hstep ω) hB

/-- **C93, what holds (MDAnalysis).** -/
theorem C93_mda_partial (μ : Measure Ω) [IsProbabilityMeasure μ] (E : Num ℝ) (P : Params ℝ) (S : Select ℝ) (sy : List String)
    (atoms fw : List ℕ) (hS : Picks S sy atoms fw) (hP : DefaultGrid E P) (F : ℕ) (hF : 2 ≤ F) (L : M3 ℝ) (V : ℝ)
    (u : Ω → ℕ → ℕ → V3 ℝ) (m : Ω → ℕ → ℕ → Fin 3 → ℤ)
    (hstep : ∀ ω, ∀ i < sy.length, ∀ j, j + 1 < F → HalfCell fun k => u ω i (j + 1) k - u ω i j k)
    (v : ℝ) (hw : UncorrelatedSteps μ (walkStep L u fw) atoms (F - 1) v)
    (sq : ℝ → ℝ) (o : Oracle ℝ G) (U : UncParams ℝ) (hblock : U.opt.block = false) (hsub : U.sub = 1) (g g' : Ω → G) (Z : Ω → Analyzer ℝ)
    (h : ∀ ω, diffusionAnalyzer sq o (g ω) U (fromUniverse E P S 1 1 none (.one (wrappedMda F sy L V (u ω) (m ω)))) = .ok (Z ω, g' ω)) :
    ExpectedCurve μ F P.nSteps atoms.length (fun τ : ℕ => (τ : ℝ) * P.stepSkip.val * P.timeStep.val)
      (fun τ => (axesOf U.dimension).card * v * (τ - 1 / ((F - τ + 1 : ℕ) : ℝ))) Z :=
  expected_of_parsed hw hblock hsub h fun ω B hB => universe_base hS hP hF (hstep ω) hB

/-! ### A walk of two steps -/

/-- Two fair coins. -/
noncomputable def exCoins : Measure (Bool × Bool) :=
  (4⁻¹ : ENNReal) • (Measure.dirac (true, true) + Measure.dirac (true, false) + Measure.dirac (false, true) + Measure.dirac (false, false))

/-- Step of a quarter of the cell, to either side. -/
noncomputable def exSign (b : Bool) : ℝ := if b then 1 / 4 else -(1 / 4)

/-- Atom 0 makes two such steps along every axis, atom 1 rests. -/
noncomputable def exWalk (ω : Bool × Bool) (i j : ℕ) : V3 ℝ := fun _ =>
  if i = 0 then (if 1 ≤ j then exSign ω.1 else 0) + (if 2 ≤ j then exSign ω.2 else 0) else 0

/-- The unit cube. -/
noncomputable def exCube : M3 ℝ := fun a b => if a = b then 1 else 0

theorem exCoins_integral (f : Bool × Bool → ℝ) :
    ∫ ω, f ω ∂exCoins = (f (true, true) + f (true, false) + f (false, true) + f (false, false)) / 4 := by
  have hi : ∀ a, Integrable f (Measure.dirac a) := fun a => integrable_dirac (by simp)
  unfold exCoins
  rw [integral_smul_measure, integral_add_measure (((hi _).add_measure (hi _)).add_measure (hi _)) (hi _),
    integral_add_measure ((hi _).add_measure (hi _)) (hi _), integral_add_measure (hi _) (hi _)]
  simp only [integral_dirac, ENNReal.toReal_inv, ENNReal.toReal_ofNat, smul_eq_mul]
  ring

instance : IsProbabilityMeasure exCoins := by
  constructor
  unfold exCoins
  simp only [Measure.smul_apply, Measure.add_apply, measure_univ, smul_eq_mul]
  norm_num
  exact ENNReal.inv_mul_cancel (by norm_num) (by norm_num)

theorem exStep (i j : ℕ) (l : Fin 3) (ω : Bool × Bool) (hi : i = 0) (hj : j < 2) :
    walkStep exCube exWalk [1] i j l ω = if j = 0 then exSign ω.1 else exSign ω.2 := by
  subst hi
  have hc : ∀ s : V3 ℝ, cart exCube s l = s l := by
    intro s
    unfold cart exCube
    simp
  simp only [walkStep, trueMove, meanOver, hc, exWalk]
  interval_cases j <;> simp

theorem exUncorrelated : UncorrelatedSteps exCoins (walkStep exCube exWalk [1]) [0] 2 (1 / 16) := by
  have hi : ∀ f : Bool × Bool → ℝ, Integrable f exCoins := fun f => Integrable.of_finite
  constructor
  · intros; exact hi _
  · intro i h0 l j hj
    rw [List.mem_singleton] at h0
    rw [exCoins_integral]
    simp only [exStep i j l _ h0 hj, exSign]
    interval_cases j <;> norm_num
  · intro i h0 l j hj j' hj' hne
    rw [List.mem_singleton] at h0
    rw [exCoins_integral]
    simp only [exStep i j l _ h0 hj, exStep i j' l _ h0 hj', exSign]
    interval_cases j <;> interval_cases j' <;> first | omega | norm_num

/-- Exact arithmetic, 2 fs between frames, all intervals. -/
noncomputable def exNumR : Num ℝ := ⟨id, fun _ _ _ _ => 1, ⟨id, id, fun _ _ => 0, 3⟩⟩
noncomputable def exParamsR : Params ℝ := { timeStep := .float 2, stepSkip := .int 1, memoryLimit := 8 }
noncomputable def exSelectR : Select ℝ := ⟨some ["Li"], .none, none, none⟩
noncomputable def exUncR : UncParams ℝ := { opt := exOpts ℝ }

theorem exGridR : DefaultGrid exNumR exParamsR := by
  refine ⟨rfl, ?_, rfl, rfl, rfl, rfl⟩
  simp [exParamsR, PyNum.val]

theorem exWalk_half (ω : Bool × Bool) (i : ℕ) (j : ℕ) (hj : j + 1 < 3) : HalfCell fun k => exWalk ω i (j + 1) k - exWalk ω i j k := by
  intro k
  obtain ⟨a, b⟩ := ω
  have : j < 2 := by omega
  simp only [exWalk]
  by_cases hi : i = 0
  · interval_cases j <;> cases a <;> cases b <;> simp [hi, exSign] <;> norm_num
  · simp [hi]

theorem exCube_nonsingular : NonSingular exCube := by
  unfold NonSingular exCube
  rw [show (Matrix.of fun a b : Fin 3 => if a = b then (1 : ℝ) else 0) = 1 from rfl, Matrix.det_one]
  exact one_ne_zero

/-- The analysis of every outcome succeeds. -/
theorem exWalk_ok (ω : Bool × Bool) : ∃ Z, diffusionAnalyzer id (exOracle ℝ) () exUncR
    (fromAse exNumR exParamsR exSelectR 1 none (.one (wrapped 3 ["Li", "O"] exCube 1 (exWalk ω) fun _ _ _ => 0))) = .ok (Z, ()) := by
  suffices h : AllAnalyzed (chosen ["Li", "O"] ["Li"]).length id (exOracle ℝ) () exUncR (fromAse exNumR exParamsR exSelectR 1 none
      (.one (wrapped 3 ["Li", "O"] exCube 1 (exWalk ω) fun _ _ _ => 0))) by
    obtain ⟨⟨Z, _, h, -⟩, -⟩ := h
    exact ⟨Z, h⟩
  refine C79_ase exNumR exParamsR exSelectR ["Li"] rfl rfl exGridR (by simp [exParamsR]) 2
    (⟨["Li", "O"], (List.range 2).map fun i => fun k => exWalk ω i 0 k + (((0 : ℤ)) : ℝ), exCube, 1⟩)
    [⟨["Li", "O"], (List.range 2).map fun i => fun k => exWalk ω i 1 k + (((0 : ℤ)) : ℝ), exCube, 1⟩,
      ⟨["Li", "O"], (List.range 2).map fun i => fun k => exWalk ω i 2 k + (((0 : ℤ)) : ℝ), exCube, 1⟩]
    (by simp) ?_ ?_ id (exOracle ℝ) () exUncR (.off rfl rfl) le_rfl (by decide +kernel)
  · intro f hf
    simp only [List.mem_cons, List.not_mem_nil, or_false] at hf
    rcases hf with rfl | rfl | rfl <;> exact ⟨rfl, by simp, exCube_nonsingular, "Li", by simp, by simp⟩
  · simp [exParamsR]
    norm_num

/-- **C93, violated.** Atom 0 makes two independent steps of `±1/4` along each axis.  The mean squared displacement between
consecutive frames is 3/16; the expected value of the MSD reported for this interval is 1/8. -/
theorem C93_violated :
    UncorrelatedSteps exCoins (walkStep exCube exWalk [1]) [0] 2 (1 / 16) ∧
    (∀ j < 2, ∫ ω, lengthSq Finset.univ (trueMove exCube (exWalk ω) [1] 0 j (j + 1)) ∂exCoins = 3 / 16) ∧
    ∃ Z : Bool × Bool → Analyzer ℝ,
      (∀ ω, diffusionAnalyzer id (exOracle ℝ) () exUncR (fromAse exNumR exParamsR exSelectR 1 none
        (.one (wrapped 3 ["Li", "O"] exCube 1 (exWalk ω) fun _ _ _ => 0))) = .ok (Z ω, ())) ∧
      (∀ ω, (Z ω).diff.dt = [2]) ∧ ∫ ω, ((Z ω).diff.n)[0]?.getD 0 ∂exCoins = 1 / 8 := by
  choose Z hZ using exWalk_ok
  refine ⟨exUncorrelated, fun j hj => ?_, Z, hZ, ?_⟩
  · have h := (lengthSq_mean exUncorrelated (i := 0) (by simp) Finset.univ (s := j) (n := 1) (by omega)).2
    rw [h]
    simp
    norm_num
  · have hax : (axesOf exUncR.dimension).card = 3 := by decide +kernel
    obtain ⟨taus, -, -, h3, h4, -, h6⟩ := C93_ase_partial exCoins exNumR exParamsR exSelectR ["Li", "O"] [0] [1]
      (.species ["Li"] rfl rfl) exGridR 3 (by norm_num) exCube 1 exWalk (fun _ _ _ _ => 0) (fun ω i _ j hj => exWalk_half ω i j hj)
      (1 / 16) exUncorrelated id (exOracle ℝ) exUncR rfl rfl (fun _ => ()) (fun _ => ()) Z hZ
    have ht := h3 (by simp [exParamsR])
    have hr : resolved 1 3 taus = [1] := by rw [ht]; decide
    constructor
    · intro ω
      rw [h4 ω]
      show (resolved 1 3 taus).map _ = _
      rw [hr]
      simp [exParamsR, PyNum.val]
    · have := (h6 0 1 (by show (resolved 1 3 taus)[0]? = _; rw [hr]; rfl)).2
      rw [this, hax]
      norm_num

/-- `C93_pymatgen_partial` for the same walk, whose analysis succeeds for every outcome. -/
example : ∃ Z : Bool × Bool → Analyzer ℝ,
    (∀ ω, diffusionAnalyzer id (exOracle ℝ) () exUncR (fromPymatgen exNumR exParamsR exSelectR 1 none
      (.one (wrapped 3 ["Li", "O"] exCube 1 (exWalk ω) fun _ _ _ => 0))) = .ok (Z ω, ())) ∧
    ExpectedCurve exCoins 3 exParamsR.nSteps 1 (fun τ : ℕ => (τ : ℝ) * exParamsR.stepSkip.val * exParamsR.timeStep.val / 1000)
      (fun τ => (axesOf exUncR.dimension).card * (1 / 16) * (τ - 1 / ((3 - τ + 1 : ℕ) : ℝ))) Z := by
  have hok : ∀ ω, ∃ Z, diffusionAnalyzer id (exOracle ℝ) () exUncR (fromPymatgen exNumR exParamsR exSelectR 1 none
      (.one (wrapped 3 ["Li", "O"] exCube 1 (exWalk ω) fun _ _ _ => 0))) = .ok (Z, ()) := by
    intro ω
    suffices h : AllAnalyzed (chosen ["Li", "O"] ["Li"]).length id (exOracle ℝ) () exUncR (fromPymatgen exNumR exParamsR exSelectR 1 none
        (.one (wrapped 3 ["Li", "O"] exCube 1 (exWalk ω) fun _ _ _ => 0))) by
      obtain ⟨⟨Z, _, h, -⟩, -⟩ := h
      exact ⟨Z, h⟩
    refine C79_pymatgen_partial exNumR exParamsR exSelectR ["Li"] rfl rfl exGridR (by simp [exParamsR]) rfl 2
      (⟨["Li", "O"], (List.range 2).map fun i => fun k => exWalk ω i 0 k + (((0 : ℤ)) : ℝ), exCube, 1⟩)
      [⟨["Li", "O"], (List.range 2).map fun i => fun k => exWalk ω i 1 k + (((0 : ℤ)) : ℝ), exCube, 1⟩,
        ⟨["Li", "O"], (List.range 2).map fun i => fun k => exWalk ω i 2 k + (((0 : ℤ)) : ℝ), exCube, 1⟩]
      (by simp) ?_ ?_ id (exOracle ℝ) () exUncR (.off rfl rfl) le_rfl (by decide +kernel)
    · intro f hf
      simp only [List.mem_cons, List.not_mem_nil, or_false] at hf
      rcases hf with rfl | rfl | rfl <;> exact ⟨rfl, by simp, exCube_nonsingular, "Li", by simp, by simp⟩
    · simp [exParamsR]
      norm_num
  choose Z hZ using hok
  exact ⟨Z, hZ, C93_pymatgen_partial exCoins exNumR exParamsR exSelectR ["Li", "O"] [0] [1] (.species ["Li"] rfl rfl) exGridR 3 (by norm_num)
    exCube 1 exWalk (fun _ _ _ _ => 0) (fun ω i _ j hj => exWalk_half ω i j hj) (1 / 16) exUncorrelated id (exOracle ℝ) exUncR rfl rfl
    (fun _ => ()) (fun _ => ()) Z hZ⟩

/-- `C93_mda_partial`, likewise. -/
example : ∃ Z : Bool × Bool → Analyzer ℝ,
    (∀ ω, diffusionAnalyzer id (exOracle ℝ) () exUncR (fromUniverse exNumR exParamsR exSelectR 1 1 none
      (.one (wrappedMda 3 ["Li", "O"] exCube 1 (exWalk ω) fun _ _ _ => 0))) = .ok (Z ω, ())) ∧
    ExpectedCurve exCoins 3 exParamsR.nSteps 1 (fun τ : ℕ => (τ : ℝ) * exParamsR.stepSkip.val * exParamsR.timeStep.val)
      (fun τ => (axesOf exUncR.dimension).card * (1 / 16) * (τ - 1 / ((3 - τ + 1 : ℕ) : ℝ))) Z := by
  have hok : ∀ ω, ∃ Z, diffusionAnalyzer id (exOracle ℝ) () exUncR (fromUniverse exNumR exParamsR exSelectR 1 1 none
      (.one (wrappedMda 3 ["Li", "O"] exCube 1 (exWalk ω) fun _ _ _ => 0))) = .ok (Z, ()) := by
    intro ω
    obtain ⟨⟨Z, _, h, -⟩, -⟩ := C79_mda exNumR exParamsR exSelectR ["Li"] rfl rfl exGridR (by simp [exParamsR]) 2 ["Li", "O"]
      (wrappedMda 3 ["Li", "O"] exCube 1 (exWalk ω) fun _ _ _ => 0).2 (by simp [wrappedMda]) rfl ⟨"Li", by simp, by simp⟩
      (by
        intro f hf
        obtain ⟨j, -, rfl⟩ := List.mem_map.mp hf
        exact ⟨by simp, exCube_nonsingular⟩)
      (by simp [exParamsR, wrappedMda]; norm_num) id (exOracle ℝ) () exUncR (.off rfl rfl) le_rfl (by decide +kernel)
    exact ⟨Z, h⟩
  choose Z hZ using hok
  exact ⟨Z, hZ, C93_mda_partial exCoins exNumR exParamsR exSelectR ["Li", "O"] [0] [1] (.species ["Li"] rfl rfl) exGridR 3 (by norm_num)
    exCube 1 exWalk (fun _ _ _ _ => 0) (fun ω i _ j hj => exWalk_half ω i j hj) (1 / 16) exUncorrelated id (exOracle ℝ) exUncR rfl rfl
    (fun _ => ()) (fun _ => ()) Z hZ⟩

end Kinisi
