import Verif.Props.LongFit
import Verif.Props.RandomWalkTotal

/-!
# C144: more frames give the right collective curves
-/

set_option linter.unusedSectionVars false
set_option linter.unusedVariables false

namespace Kinisi
open MeasureTheory ProbabilityTheory Spec

variable {Ω : Type} [MeasurableSpace Ω] {μ : Measure Ω} [IsProbabilityMeasure μ] {G : Type}

/-- The steps of the total displacement between the frames `k - 1` and `k + τ - 1` (for `k = 0` the first `τ - 1` steps). -/
def totalWin (τ : ℕ) (w : ℕ × Fin 3) : Finset (ℕ × Fin 3) := (Finset.Ico (w.1 - 1) (w.1 + τ - 1)).image fun j => (j, w.2)

theorem mem_totalWin {τ : ℕ} {w q : ℕ × Fin 3} : q ∈ totalWin τ w ↔ (w.1 ≤ q.1 + 1 ∧ q.1 + 1 < w.1 + τ) ∧ q.2 = w.2 := by
  unfold totalWin
  rw [Finset.mem_image]
  constructor
  · rintro ⟨j, hj, rfl⟩
    rw [Finset.mem_Ico] at hj
    exact ⟨⟨by dsimp only; omega, by dsimp only; omega⟩, rfl⟩
  · rintro ⟨⟨h2, h3⟩, h4⟩
    exact ⟨q.1, Finset.mem_Ico.mpr ⟨by omega, by omega⟩, by rw [← h4]⟩

theorem card_totalWin (τ : ℕ) (w : ℕ × Fin 3) : (totalWin τ w).card = (w.1 + τ - 1) - (w.1 - 1) := by
  unfold totalWin
  rw [Finset.card_image_of_injective _ fun a b hab => (Prod.mk.inj hab).1, Nat.card_Ico]

theorem totalMove_steps (L : M3 ℝ) (u : Ω → ℕ → ℕ → V3 ℝ) (fw atoms : List ℕ) (q : ℕ → ℝ) (s n : ℕ) (l : Fin 3) (ω : Ω) :
    totalMove L (u ω) fw atoms q s (s + n) l = ∑ j ∈ Finset.Ico s (s + n), totalMove L (u ω) fw atoms q j (j + 1) l := by
  unfold totalMove
  rw [Finset.sum_comm]
  refine Finset.sum_congr rfl fun a _ => ?_
  rw [trueMove_steps, Finset.sum_Ico_eq_sum_range, Nat.add_sub_cancel_left, Finset.mul_sum]
  rfl

/-- `reportedTotal` as a sum over windows and axes. -/
theorem reportedTotal_windows {L : M3 ℝ} {u : Ω → ℕ → ℕ → V3 ℝ} {fw atoms : List ℕ} {q : ℕ → ℝ} {Ξ : ℕ × Fin 3 → Ω → ℝ}
    (hΞ : ∀ j l ω, totalMove L (u ω) fw atoms q j (j + 1) l = Ξ (j, l) ω) (A : Finset (Fin 3)) {F τ : ℕ} (h1 : 1 ≤ τ) (ω : Ω) :
    reportedTotal A L (u ω) fw atoms q F τ = (((F - τ + 1 : ℕ) : ℝ))⁻¹ *
      ∑ w ∈ Finset.range (F - τ + 1) ×ˢ A, moveOver Ξ (totalWin τ w) ω ^ 2 := by
  have hmove : ∀ s n l, totalMove L (u ω) fw atoms q s (s + n) l = ∑ j ∈ Finset.Ico s (s + n), Ξ (j, l) ω := by
    intro s n l
    rw [totalMove_steps]
    exact Finset.sum_congr rfl fun j _ => hΞ _ _ _
  have hwin : ∀ k l, moveOver Ξ (totalWin τ (k, l)) ω = ∑ j ∈ Finset.Ico (k - 1) (k + τ - 1), Ξ (j, l) ω := by
    intro k l
    unfold moveOver totalWin
    rw [Finset.sum_image]
    intro a _ b _ hab
    simpa using hab
  unfold reportedTotal
  rw [div_eq_inv_mul, Finset.sum_product, Finset.sum_range_succ']
  congr 1
  rw [add_comm]
  congr 1
  · refine Finset.sum_congr rfl fun s _ => Finset.sum_congr rfl fun l _ => ?_
    rw [hwin, hmove, Nat.add_sub_cancel, show s + 1 + τ - 1 = s + τ from by omega]
  · refine Finset.sum_congr rfl fun l _ => ?_
    have := hmove 0 (τ - 1) l
    rw [Nat.zero_add] at this
    rw [hwin, this]
    simp

/-- Mean squared error of `reportedTotal`. -/
theorem reportedTotal_mse {Ξ : ℕ × Fin 3 → Ω → ℝ} (h : RandomWalk μ Ξ) {v C : ℝ} (hC : 0 ≤ C) (hs : StepMoments μ Ξ v C) {L : M3 ℝ}
    {u : Ω → ℕ → ℕ → V3 ℝ} {fw atoms : List ℕ} {q : ℕ → ℝ} (hΞ : ∀ j l ω, totalMove L (u ω) fw atoms q j (j + 1) l = Ξ (j, l) ω)
    (A : Finset (Fin 3)) {F τ : ℕ} (h1 : 1 ≤ τ) (h2 : τ ≤ F) :
    MemLp (fun ω => reportedTotal A L (u ω) fw atoms q F τ) 2 μ ∧
      ∫ ω, (reportedTotal A L (u ω) fw atoms q F τ - A.card * v * τ) ^ 2 ∂μ ≤ mseBound A v C 1 τ F := by
  have hW : (0 : ℝ) < ((F - τ + 1 : ℕ) : ℝ) := by exact_mod_cast Nat.succ_pos _
  set W : ℝ := ((F - τ + 1 : ℕ) : ℝ) with hWd
  set X : Ω → ℝ := fun ω => reportedTotal A L (u ω) fw atoms q F τ with hXd
  set P := Finset.range (F - τ + 1) ×ˢ A with hP
  have eX : X = fun ω => W⁻¹ * ∑ w ∈ P, moveOver Ξ (totalWin τ w) ω ^ 2 := funext fun ω => reportedTotal_windows hΞ A h1 ω
  have hmem : MemLp X 2 μ := by
    rw [eX]
    exact (memLp_finsetSum _ fun w _ => sq_memLp h _).const_mul _
  have hX : ∫ ω, X ω ∂μ = W⁻¹ * (A.card * (v * (W * τ - 1))) := by
    rw [eX, integral_const_mul, integral_finsetSum _ fun w _ => (sq_memLp h _).integrable (by norm_num)]
    congr 1
    simp only [moveOver_second h hs.second]
    rw [hP, Finset.sum_product, Finset.sum_range_succ']
    simp only [card_totalWin, Finset.sum_const, nsmul_eq_mul]
    have e1 : ∀ k : ℕ, k + 1 + τ - 1 - (k + 1 - 1) = τ := fun k => by omega
    have e2 : (0 + τ - 1 - (0 - 1) : ℕ) = τ - 1 := by omega
    simp only [e1, e2, Finset.sum_const, Finset.card_range, nsmul_eq_mul]
    rw [hWd]
    push_cast [Nat.cast_sub h1, Nat.cast_sub h2]
    ring
  have hvar : Var[X; μ] ≤ A.card * ((2 * τ + 1) * (τ * (C + 6 * τ * v ^ 2))) / ((1 : ℕ) * W) := by
    have hv := var_overlap h hC hs P (totalWin τ) τ (2 * τ + 1) (fun a _ => by rw [card_totalWin]; omega)
      (fun w => (Finset.Icc (w.1 - τ) (w.1 + τ)).image fun k => (k, w.2))
      (fun w _ => by
        refine Finset.card_image_le.trans ?_
        rw [Nat.card_Icc]
        omega)
      (fun a _ b _ hb => by
        rw [Finset.disjoint_left]
        intro q ha' hb'
        rw [mem_totalWin] at ha' hb'
        apply hb
        rw [Finset.mem_image]
        refine ⟨b.1, Finset.mem_Icc.mpr ⟨by omega, by omega⟩, ?_⟩
        rw [← ha'.2, hb'.2])
    have hcard : (P.card : ℝ) = W * A.card := by
      rw [hP, Finset.card_product, Finset.card_range, Nat.cast_mul]
    have e : Var[X; μ] = (W⁻¹) ^ 2 * Var[fun ω => ∑ w ∈ P, moveOver Ξ (totalWin τ w) ω ^ 2; μ] := by
      rw [eX, variance_const_mul]
    rw [e]
    refine (mul_le_mul_of_nonneg_left hv (sq_nonneg _)).trans (le_of_eq ?_)
    rw [hcard]
    push_cast
    field_simp
  have split : ∫ ω, (X ω - A.card * v * τ) ^ 2 ∂μ = Var[X; μ] + (∫ ω, X ω ∂μ - A.card * v * τ) ^ 2 := by
    have hi := hmem.integrable (by norm_num)
    have hsq : Integrable (fun ω => X ω ^ 2) μ := hmem.integrable_sq
    rw [variance_eq_sub hmem]
    have e : ∀ ω, (X ω - A.card * v * τ) ^ 2 = X ω ^ 2 + ((-2 * (A.card * v * τ)) * X ω + (A.card * v * τ) ^ 2) := fun ω => by ring
    simp only [e]
    have hlin : Integrable (fun ω => (-2 * (A.card * v * τ)) * X ω + (A.card * v * τ) ^ 2) μ := (hi.const_mul _).add (integrable_const _)
    rw [integral_add hsq hlin, integral_add (hi.const_mul _) (integrable_const _), integral_const_mul, integral_const]
    simp only [Pi.pow_apply, probReal_univ, smul_eq_mul, one_mul]
    ring
  refine ⟨hmem, ?_⟩
  show ∫ ω, (X ω - A.card * v * τ) ^ 2 ∂μ ≤ _
  rw [split]
  refine add_le_add hvar (le_of_eq ?_)
  rw [hX]
  field_simp
  ring

theorem resolved_half {N F τ : ℕ} (hN : 1 ≤ N) (h1 : 1 ≤ τ) (h2 : 4 * τ ≤ F) :
    ((resolved N F ((List.range F).map fun i => i + 1)).take ((resolved N F ((List.range F).map fun i => i + 1)).length / 2))[τ - 1]? = some τ := by
  have a := resolved_all hN h1 (F := F) (by omega)
  have b := resolved_all (τ := 2 * τ) hN (by omega) (F := F) (by omega)
  have hl : 2 * τ - 1 < (resolved N F ((List.range F).map fun i => i + 1)).length := by
    by_contra hc
    rw [List.getElem?_eq_none (by omega)] at b
    cases b
  rw [List.getElem?_take, if_pos (by omega), a]

/-- The value of a curve at the interval of `τ` frames converges to `y`, in mean square and in probability. -/
def ConvergesAt (μ : Measure Ω) (n : ℕ → Ω → List ℝ) (τ : ℕ) (y : ℝ) : Prop :=
  Filter.Tendsto (fun F => ∫ ω, ((n F ω)[τ - 1]?.getD 0 - y) ^ 2 ∂μ) Filter.atTop (nhds 0) ∧
  ∀ ε : ℝ, 0 < ε → Filter.Tendsto (fun F => μ.real {ω | ε ≤ |(n F ω)[τ - 1]?.getD 0 - y|}) Filter.atTop (nhds 0)

theorem convergesAt_of {n : ℕ → Ω → List ℝ} {τ : ℕ} {y : ℝ} {bound : ℕ → ℝ} (hb : Filter.Tendsto bound Filter.atTop (nhds 0)) {F0 : ℕ}
    (h : ∀ F, F0 ≤ F → MemLp (fun ω => (n F ω)[τ - 1]?.getD 0) 2 μ ∧ ∫ ω, ((n F ω)[τ - 1]?.getD 0 - y) ^ 2 ∂μ ≤ bound F) : ConvergesAt μ n τ y := by
  have lim : Filter.Tendsto (fun F => ∫ ω, ((n F ω)[τ - 1]?.getD 0 - y) ^ 2 ∂μ) Filter.atTop (nhds 0) := by
    refine tendsto_of_tendsto_of_tendsto_of_le_of_le' tendsto_const_nhds hb ?_ ?_
    · exact Filter.Eventually.of_forall fun F => integral_nonneg fun ω => sq_nonneg _
    · exact (Filter.eventually_ge_atTop F0).mono fun F hF => (h F hF).2
  refine ⟨lim, fun ε hε => ?_⟩
  have l2 := lim.div_const (ε ^ 2)
  rw [zero_div] at l2
  refine tendsto_of_tendsto_of_tendsto_of_le_of_le' tendsto_const_nhds l2 ?_ ?_
  · exact Filter.Eventually.of_forall fun F => measureReal_nonneg
  · refine (Filter.eventually_ge_atTop F0).mono fun F hF => ?_
    have hi := ((h F hF).1.sub (memLp_const y)).integrable_sq
    have := mul_meas_ge_le_integral_of_nonneg (μ := μ) (Filter.Eventually.of_forall fun ω => sq_nonneg _) hi (ε ^ 2)
    rw [le_div_iff₀ (by positivity), mul_comm]
    refine le_trans (le_of_eq ?_) this
    congr 2
    ext ω
    show ε ≤ |_| ↔ ε ^ 2 ≤ (_ - _) ^ 2
    rw [← sq_abs (_ - _), sq_le_sq₀ hε.le (abs_nonneg _)]

/-- **C144 (MSTD), error bound.** The total displacement of the atoms makes independent steps of mean zero, with mean square `v` and
fourth moment at most `C` along every axis; within one step the atoms may move together in any way.  In an analysis of `F ≥ 4 τ` frames
the mean squared total displacement reported for the interval of `τ` frames has a mean squared error of at most
`d (2 τ + 1) τ (C + 6 τ v²) / W + (d v / W)²` about `d v τ`, where `W = F - τ + 1`. -/
theorem C144_mstd_error (μ : Measure Ω) [IsProbabilityMeasure μ] (E : Num ℝ) (P : Params ℝ) (S : Select ℝ) (sy : List String)
    (atoms fw : List ℕ) (hS : Picks S sy atoms fw) (hne : atoms ≠ []) (hP : DefaultGrid E P) (F : ℕ)
    (hn : (F : ℤ) ≤ P.nSteps) (L : M3 ℝ) (V : ℝ) (u : Ω → ℕ → ℕ → V3 ℝ) (m : Ω → ℕ → ℕ → Fin 3 → ℤ)
    (hstep : ∀ ω, ∀ i < sy.length, ∀ j, j + 1 < F → HalfCell fun k => u ω i (j + 1) k - u ω i j k)
    (Ξ : ℕ × Fin 3 → Ω → ℝ) (h : RandomWalk μ Ξ) (v C : ℝ) (hC : 0 ≤ C) (hs : StepMoments μ Ξ v C)
    (hΞ : ∀ j l ω, totalMove L (u ω) fw atoms (fun _ => 1) j (j + 1) l = Ξ (j, l) ω)
    (sq : ℝ → ℝ) (o : Oracle ℝ G) (U : UncParams ℝ) (hblock : U.opt.block = false) (hsub : U.sub = 1)
    (base : Ω → PyM (Base ℝ)) (unit : ℝ) (hbase : ∀ ω, ReadFrom E P S F sy L V (u ω) (m ω) (base ω) unit) (g g' : Ω → G)
    (Z : Ω → Analyzer ℝ) (hZ : ∀ ω, jumpAnalyzer sq o (g ω) U (base ω) = .ok (Z ω, g' ω)) (τ : ℕ) (h1 : 1 ≤ τ) (h2 : 4 * τ ≤ F) :
    (∀ ω, ((Z ω).diff.dt)[τ - 1]? = some ((τ : ℝ) * P.stepSkip.val * P.timeStep.val / unit) ∧ (((Z ω).diff.n)[τ - 1]?).isSome) ∧
    MemLp (fun ω => ((Z ω).diff.n)[τ - 1]?.getD 0) 2 μ ∧
    ∫ ω, (((Z ω).diff.n)[τ - 1]?.getD 0 - (axesOf U.dimension).card * v * τ) ^ 2 ∂μ ≤ mseBound (axesOf U.dimension) v C 1 τ F := by
  have hr := resolved_half (N := atoms.length) (List.length_pos_of_ne_nil hne) h1 h2
  have all : ∀ ω, ((Z ω).diff.n)[τ - 1]? = some (reportedTotal (axesOf U.dimension) L (u ω) fw atoms (fun _ => 1) F τ) ∧
      ((Z ω).diff.dt)[τ - 1]? = some ((τ : ℝ) * P.stepSkip.val * P.timeStep.val / unit) := by
    intro ω
    obtain ⟨B, hB, -, hm⟩ := jump_inv (hZ ω)
    obtain ⟨taus, -, ht⟩ := read_base hS hP (by omega) (hstep ω) (hbase ω) hB
    obtain ⟨e1, e2⟩ := mstd_of_parsed ht hblock hsub hm
    have := ht.full hn
    subst this
    rw [e1, e2, List.getElem?_map, List.getElem?_map, hr]
    exact ⟨rfl, rfl⟩
  have e : (fun ω => ((Z ω).diff.n)[τ - 1]?.getD 0) = fun ω => reportedTotal (axesOf U.dimension) L (u ω) fw atoms (fun _ => 1) F τ := by
    funext ω
    rw [(all ω).1]
    rfl
  obtain ⟨m1, m2⟩ := reportedTotal_mse h hC hs hΞ (axesOf U.dimension) h1 (show τ ≤ F by omega)
  refine ⟨fun ω => ⟨(all ω).2, by rw [(all ω).1]; rfl⟩, by rw [e]; exact m1, le_of_eq_of_le ?_ m2⟩
  congr 1
  funext ω
  exact congrArg (fun x => (x - _) ^ 2) (congrFun e ω)

/-- **C144 (MSCD), error bound.** The same for the displacements weighted by the charges; always along three axes (C31). -/
theorem C144_mscd_error (μ : Measure Ω) [IsProbabilityMeasure μ] (E : Num ℝ) (P : Params ℝ) (S : Select ℝ) (sy : List String)
    (atoms fw : List ℕ) (hS : Picks S sy atoms fw) (hne : atoms ≠ []) (hP : DefaultGrid E P) (F : ℕ)
    (hn : (F : ℤ) ≤ P.nSteps) (L : M3 ℝ) (V : ℝ) (u : Ω → ℕ → ℕ → V3 ℝ) (m : Ω → ℕ → ℕ → Fin 3 → ℤ)
    (hstep : ∀ ω, ∀ i < sy.length, ∀ j, j + 1 < F → HalfCell fun k => u ω i (j + 1) k - u ω i j k)
    (charge : Charge ℝ) (hq : ∀ l, charge = .array l → l.length = atoms.length)
    (Ξ : ℕ × Fin 3 → Ω → ℝ) (h : RandomWalk μ Ξ) (v C : ℝ) (hC : 0 ≤ C) (hs : StepMoments μ Ξ v C)
    (hΞ : ∀ j l ω, totalMove L (u ω) fw atoms charge.of j (j + 1) l = Ξ (j, l) ω)
    (sq : ℝ → ℝ) (o : Oracle ℝ G) (U : UncParams ℝ) (hblock : U.opt.block = false) (hsub : U.sub = 1)
    (base : Ω → PyM (Base ℝ)) (unit : ℝ) (hbase : ∀ ω, ReadFrom E P S F sy L V (u ω) (m ω) (base ω) unit) (g g' : Ω → G)
    (Z : Ω → Analyzer ℝ) (hZ : ∀ ω, conductivityAnalyzer sq o (g ω) U charge (base ω) = .ok (Z ω, g' ω)) (τ : ℕ) (h1 : 1 ≤ τ) (h2 : 4 * τ ≤ F) :
    (∀ ω, ((Z ω).diff.dt)[τ - 1]? = some ((τ : ℝ) * P.stepSkip.val * P.timeStep.val / unit) ∧ (((Z ω).diff.n)[τ - 1]?).isSome) ∧
    MemLp (fun ω => ((Z ω).diff.n)[τ - 1]?.getD 0) 2 μ ∧
    ∫ ω, (((Z ω).diff.n)[τ - 1]?.getD 0 - 3 * v * τ) ^ 2 ∂μ ≤ mseBound Finset.univ v C 1 τ F := by
  have hr := resolved_half (N := atoms.length) (List.length_pos_of_ne_nil hne) h1 h2
  have all : ∀ ω, ((Z ω).diff.n)[τ - 1]? = some (reportedTotal Finset.univ L (u ω) fw atoms charge.of F τ) ∧
      ((Z ω).diff.dt)[τ - 1]? = some ((τ : ℝ) * P.stepSkip.val * P.timeStep.val / unit) := by
    intro ω
    obtain ⟨B, hB, -, hm⟩ := conductivity_inv (hZ ω)
    obtain ⟨taus, -, ht⟩ := read_base hS hP (by omega) (hstep ω) (hbase ω) hB
    obtain ⟨e1, e2⟩ := mscd_of_parsed ht hq hblock hsub hm
    have := ht.full hn
    subst this
    rw [e1, e2, List.getElem?_map, List.getElem?_map, hr]
    exact ⟨rfl, rfl⟩
  have e : (fun ω => ((Z ω).diff.n)[τ - 1]?.getD 0) = fun ω => reportedTotal Finset.univ L (u ω) fw atoms charge.of F τ := by
    funext ω
    rw [(all ω).1]
    rfl
  obtain ⟨m1, m2⟩ := reportedTotal_mse h hC hs hΞ Finset.univ h1 (show τ ≤ F by omega)
  refine ⟨fun ω => ⟨(all ω).2, by rw [(all ω).1]; rfl⟩, by rw [e]; exact m1, le_of_eq_of_le ?_ m2⟩
  congr 1
  funext ω
  rw [show ((Finset.univ : Finset (Fin 3)).card : ℝ) = 3 by simp]
  exact congrArg (fun x => (x - _) ^ 2) (congrFun e ω)

/-- **C144, limit.** One motion is analysed from its first `F` frames, for every `F`.  As the number of frames grows, the mean squared
total displacement reported for a fixed interval of `τ` frames tends to `d v τ`, and the mean squared charge displacement to `3 w τ`, in
mean square and in probability, where `v` and `w` are the mean squares of one step of the total displacement, without and with charges:
all correlations between the atoms are included. -/
theorem C144_limit (μ : Measure Ω) [IsProbabilityMeasure μ] (E : Num ℝ) (P : ℕ → Params ℝ) (S : Select ℝ) (sy : List String)
    (atoms fw : List ℕ) (hS : Picks S sy atoms fw) (hne : atoms ≠ []) (hP : ∀ F, DefaultGrid E (P F))
    (hn : ∀ F : ℕ, (F : ℤ) ≤ (P F).nSteps) (L : M3 ℝ) (V : ℝ) (u : Ω → ℕ → ℕ → V3 ℝ) (m : Ω → ℕ → ℕ → Fin 3 → ℤ)
    (hstep : ∀ ω, ∀ i < sy.length, ∀ j, HalfCell fun k => u ω i (j + 1) k - u ω i j k)
    (charge : Charge ℝ) (hq : ∀ l, charge = .array l → l.length = atoms.length)
    (Ξ Θ : ℕ × Fin 3 → Ω → ℝ) (h : RandomWalk μ Ξ) (h' : RandomWalk μ Θ) (v w C : ℝ) (hC : 0 ≤ C) (hs : StepMoments μ Ξ v C)
    (hs' : StepMoments μ Θ w C) (hΞ : ∀ j l ω, totalMove L (u ω) fw atoms (fun _ => 1) j (j + 1) l = Ξ (j, l) ω)
    (hΘ : ∀ j l ω, totalMove L (u ω) fw atoms charge.of j (j + 1) l = Θ (j, l) ω)
    (sq : ℝ → ℝ) (o : Oracle ℝ G) (U : UncParams ℝ) (hblock : U.opt.block = false) (hsub : U.sub = 1)
    (base : ℕ → Ω → PyM (Base ℝ)) (unit : ℝ) (hbase : ∀ F ω, ReadFrom E (P F) S F sy L V (u ω) (m ω) (base F ω) unit)
    (g g' : ℕ → Ω → G) (J Y : ℕ → Ω → Analyzer ℝ) (τ : ℕ) (h1 : 1 ≤ τ)
    (hJ : ∀ F, 4 * τ ≤ F → ∀ ω, jumpAnalyzer sq o (g F ω) U (base F ω) = .ok (J F ω, g' F ω))
    (hY : ∀ F, 4 * τ ≤ F → ∀ ω, conductivityAnalyzer sq o (g F ω) U charge (base F ω) = .ok (Y F ω, g' F ω)) :
    ConvergesAt μ (fun F ω => (J F ω).diff.n) τ ((axesOf U.dimension).card * v * τ) ∧ ConvergesAt μ (fun F ω => (Y F ω).diff.n) τ (3 * w * τ) := by
  refine ⟨convergesAt_of (mseBound_tendsto (axesOf U.dimension) v C 1 τ) (F0 := 4 * τ) fun F hF => ?_,
    convergesAt_of (mseBound_tendsto Finset.univ w C 1 τ) (F0 := 4 * τ) fun F hF => ?_⟩
  · exact (C144_mstd_error μ E (P F) S sy atoms fw hS hne (hP F) F (hn F) L V u m (fun ω i hi j _ => hstep ω i hi j) Ξ h v C hC hs hΞ sq o U hblock
      hsub (base F) unit (hbase F) (g F) (g' F) (J F) (hJ F hF) τ h1 hF).2
  · exact (C144_mscd_error μ E (P F) S sy atoms fw hS hne (hP F) F (hn F) L V u m (fun ω i hi j _ => hstep ω i hi j) charge hq Θ h' w C hC hs' hΘ sq
      o U hblock hsub (base F) unit (hbase F) (g F) (g' F) (Y F) (hY F hF) τ h1 hF).2

/-! ### The fitted gradient -/

/-- Without an intercept the fitted gradient is the first fitted value over its time. -/
theorem totalRay_ratio {E : Num ℝ} {P : Params ℝ} {S : Select ℝ} {sy : List String} {atoms fw : List ℕ} (hS : Picks S sy atoms fw)
    (hP : DefaultGrid E P) {F : ℕ} (hF : 2 ≤ F) {L : M3 ℝ} {V : ℝ} {u : ℕ → ℕ → V3 ℝ} {m : ℕ → ℕ → Fin 3 → ℤ}
    (hstep : ∀ i < sy.length, ∀ j, j + 1 < F → HalfCell fun k => u i (j + 1) k - u i j k) {charge : Charge ℝ}
    (hq : ∀ l, charge = .array l → l.length = atoms.length) {sq : ℝ → ℝ} {o : Oracle ℝ G} {U : UncParams ℝ}
    (hblock : U.opt.block = false) (hsub : U.sub = 1) {base : PyM (Base ℝ)} {unit : ℝ} (hbase : ReadFrom E P S F sy L V u m base unit)
    {g g' : G} {Z : Analyzer ℝ} (h : jumpAnalyzer sq o g U base = .ok (Z, g') ∨ conductivityAnalyzer sq o g U charge base = .ok (Z, g'))
    {r : ℕ} {D : ℝ} (hD : FittedRay Z.diff r D) : D = Z.diff.n.getD r 0 / Z.diff.dt.getD r 0 := by
  obtain ⟨v, k, W, ld, best, hl, hm, hW, hv, hN, hb⟩ := hD
  obtain ⟨B, hB, hZ⟩ : ∃ B, base = .ok B ∧ Z.toBase = B := by
    rcases h with h | h
    · obtain ⟨B, a, b, -⟩ := jump_inv h; exact ⟨B, a, b⟩
    · obtain ⟨B, a, b, -⟩ := conductivity_inv h; exact ⟨B, a, b⟩
  obtain ⟨taus, -, ht⟩ := read_base hS hP hF hstep hbase hB
  obtain ⟨f, hf, hn, hd⟩ : ∃ f : ℕ → ℝ, (∀ τ, 0 ≤ f τ) ∧
      Z.diff.n = ((resolved atoms.length F taus).take ((resolved atoms.length F taus).length / 2)).map f ∧
      Z.diff.dt = ((resolved atoms.length F taus).take ((resolved atoms.length F taus).length / 2)).map
        fun τ : ℕ => (τ : ℝ) * P.stepSkip.val * P.timeStep.val / unit := by
    have pos : ∀ (A : Finset (Fin 3)) (q : ℕ → ℝ) (τ : ℕ), 0 ≤ reportedTotal A L u fw atoms q F τ := by
      intro A q τ
      unfold reportedTotal lengthSq
      exact div_nonneg (add_nonneg (Finset.sum_nonneg fun _ _ => sq_nonneg _)
        (Finset.sum_nonneg fun _ _ => Finset.sum_nonneg fun _ _ => sq_nonneg _)) (Nat.cast_nonneg _)
    rcases h with h | h
    · obtain ⟨B', a, -, hm⟩ := jump_inv h
      rw [hB] at a
      obtain rfl := Except.ok.inj a
      obtain ⟨e1, e2⟩ := mstd_of_parsed ht hblock hsub hm
      exact ⟨_, pos _ _, e1, e2⟩
    · obtain ⟨B', a, -, hm⟩ := conductivity_inv h
      rw [hB] at a
      obtain rfl := Except.ok.inj a
      obtain ⟨e1, e2⟩ := mscd_of_parsed ht hq hblock hsub hm
      exact ⟨_, pos _ _, e1, e2⟩
  obtain ⟨hfl, hpos, -, -, -, hsm⟩ := hP
  obtain ⟨κ, hκ⟩ := path_constant hfl hsm hpos (uni := wrappedMda F sy L V u m) (charge := charge) hbase hsub (.inr h) (fun τ hτ => (ht.range τ hτ).1)
    (ht.sorted.imp fun h => h.le) (by rw [hZ]; exact ht.deltaT)
  have hld : Z.diff.dt.length = Z.diff.n.length := by rw [hn, hd, List.length_map, List.length_map]
  have hdt : ∀ t ∈ Z.diff.dt, 0 < t := by
    intro t' ht'
    rw [hd] at ht'
    obtain ⟨τ, hτ, rfl⟩ := List.mem_map.mp ht'
    have h0 : (0 : ℝ) < τ := by exact_mod_cast (ht.range τ (List.mem_filter.mp (List.mem_of_mem_take hτ)).1).1
    have hu : 0 < unit := by rcases hbase with ⟨-, rfl⟩ | ⟨-, rfl⟩ | ⟨-, rfl⟩ <;> norm_num
    rw [mul_assoc]
    positivity
  have hy : ∀ y ∈ Z.diff.n, 0 ≤ y := by
    intro y hy
    rw [hn] at hy
    obtain ⟨τ, -, rfl⟩ := List.mem_map.mp hy
    exact hf τ
  exact (fit_ray (b := { Z.diff with v := v }) hW hm hl hld hv hN κ hκ hdt hy ld D).1 ⟨best, hb⟩

/-- Chebyshev's inequality for a gradient that is a value over its time. -/
theorem gradient_off {Z : Ω → Analyzer ℝ} {τ : ℕ} (h1 : 1 ≤ τ) {d v δ ε bound : ℝ} (hδ : 0 < δ) (hε : 0 < ε)
    (hdt : ∀ ω, ((Z ω).diff.dt)[τ - 1]? = some (τ * δ)) (hm : MemLp (fun ω => ((Z ω).diff.n)[τ - 1]?.getD 0) 2 μ)
    (hb : ∫ ω, (((Z ω).diff.n)[τ - 1]?.getD 0 - d * v * τ) ^ 2 ∂μ ≤ bound)
    (hr : ∀ ω D, FittedRay (Z ω).diff (τ - 1) D → D = (Z ω).diff.n.getD (τ - 1) 0 / (Z ω).diff.dt.getD (τ - 1) 0) :
    μ.real {ω | ∃ D, FittedRay (Z ω).diff (τ - 1) D ∧ ε ≤ |D - d * v / δ|} ≤ bound / (ε * τ * δ) ^ 2 := by
  have hτ0 : (0 : ℝ) < τ := by exact_mod_cast h1
  have hi := (hm.sub (memLp_const (d * v * τ : ℝ))).integrable_sq
  have cheb := mul_meas_ge_le_integral_of_nonneg (μ := μ) (Filter.Eventually.of_forall fun ω => sq_nonneg _) hi ((ε * τ * δ) ^ 2)
  rw [le_div_iff₀ (by positivity), mul_comm]
  refine le_trans (mul_le_mul_of_nonneg_left (measureReal_mono (fun ω hω => ?_)) (by positivity)) (cheb.trans hb)
  obtain ⟨D, hD, hoff⟩ := hω
  have hr := hr ω D hD
  rw [List.getD_eq_getElem?_getD, List.getD_eq_getElem?_getD, hdt] at hr
  show (ε * τ * δ) ^ 2 ≤ (((Z ω).diff.n)[τ - 1]?.getD 0 - d * v * τ) ^ 2
  have e : ((Z ω).diff.n)[τ - 1]?.getD 0 - d * v * τ = (D - d * v / δ) * (τ * δ) := by
    rw [hr, Option.getD_some]
    field_simp
  rw [e, mul_assoc, mul_pow, mul_pow (D - _), ← sq_abs (D - _)]
  exact mul_le_mul_of_nonneg_right (pow_le_pow_left₀ hε.le hoff 2) (sq_nonneg _)

/-- **C144, fit of the MSTD.** The frames are `δ` apart.  The probability that a fit without intercept, from the interval of `τ` frames on,
returns a gradient that is off by `ε` or more is at most the bound of `C144_mstd_error` divided by `(ε τ δ)²`. -/
theorem C144_jump_fit (μ : Measure Ω) [IsProbabilityMeasure μ] (E : Num ℝ) (P : Params ℝ) (S : Select ℝ) (sy : List String)
    (atoms fw : List ℕ) (hS : Picks S sy atoms fw) (hne : atoms ≠ []) (hP : DefaultGrid E P) (F : ℕ)
    (hn : (F : ℤ) ≤ P.nSteps) (L : M3 ℝ) (V : ℝ) (u : Ω → ℕ → ℕ → V3 ℝ) (m : Ω → ℕ → ℕ → Fin 3 → ℤ)
    (hstep : ∀ ω, ∀ i < sy.length, ∀ j, j + 1 < F → HalfCell fun k => u ω i (j + 1) k - u ω i j k)
    (Ξ : ℕ × Fin 3 → Ω → ℝ) (h : RandomWalk μ Ξ) (v C : ℝ) (hC : 0 ≤ C) (hs : StepMoments μ Ξ v C)
    (hΞ : ∀ j l ω, totalMove L (u ω) fw atoms (fun _ => 1) j (j + 1) l = Ξ (j, l) ω)
    (sq : ℝ → ℝ) (o : Oracle ℝ G) (U : UncParams ℝ) (hblock : U.opt.block = false) (hsub : U.sub = 1)
    (base : Ω → PyM (Base ℝ)) (unit : ℝ) (hbase : ∀ ω, ReadFrom E P S F sy L V (u ω) (m ω) (base ω) unit) (g g' : Ω → G)
    (Z : Ω → Analyzer ℝ) (hZ : ∀ ω, jumpAnalyzer sq o (g ω) U (base ω) = .ok (Z ω, g' ω)) (τ : ℕ) (h1 : 1 ≤ τ) (h2 : 4 * τ ≤ F)
    (δ : ℝ) (hδ : δ = P.stepSkip.val * P.timeStep.val / unit) (ε : ℝ) (hε : 0 < ε) :
    μ.real {ω | ∃ D, FittedRay (Z ω).diff (τ - 1) D ∧ ε ≤ |D - (axesOf U.dimension).card * v / δ|} ≤
      mseBound (axesOf U.dimension) v C 1 τ F / (ε * τ * δ) ^ 2 := by
  obtain ⟨k1, k2, k3⟩ := C144_mstd_error μ E P S sy atoms fw hS hne hP F hn L V u m hstep Ξ h v C hC hs hΞ sq o U hblock hsub base unit hbase g
    g' Z hZ τ h1 h2
  have hΩ : Nonempty Ω := μ.nonempty_of_neZero
  have hu : 0 < unit := by rcases hbase hΩ.some with ⟨-, rfl⟩ | ⟨-, rfl⟩ | ⟨-, rfl⟩ <;> norm_num
  have hδ0 : 0 < δ := by rw [hδ]; exact div_pos hP.2.1 hu
  refine gradient_off h1 hδ0 hε (fun ω => ?_) k2 k3 fun ω D hD => totalRay_ratio hS hP (by omega) (hstep ω) (charge := .scalar 1)
    (fun l hl => by cases hl) hblock hsub (hbase ω) (.inl (hZ ω)) hD
  rw [(k1 ω).1, hδ]
  congr 1
  ring

/-- **C144, fit of the MSCD.** -/
theorem C144_conductivity_fit (μ : Measure Ω) [IsProbabilityMeasure μ] (E : Num ℝ) (P : Params ℝ) (S : Select ℝ) (sy : List String)
    (atoms fw : List ℕ) (hS : Picks S sy atoms fw) (hne : atoms ≠ []) (hP : DefaultGrid E P) (F : ℕ)
    (hn : (F : ℤ) ≤ P.nSteps) (L : M3 ℝ) (V : ℝ) (u : Ω → ℕ → ℕ → V3 ℝ) (m : Ω → ℕ → ℕ → Fin 3 → ℤ)
    (hstep : ∀ ω, ∀ i < sy.length, ∀ j, j + 1 < F → HalfCell fun k => u ω i (j + 1) k - u ω i j k)
    (charge : Charge ℝ) (hq : ∀ l, charge = .array l → l.length = atoms.length)
    (Ξ : ℕ × Fin 3 → Ω → ℝ) (h : RandomWalk μ Ξ) (v C : ℝ) (hC : 0 ≤ C) (hs : StepMoments μ Ξ v C)
    (hΞ : ∀ j l ω, totalMove L (u ω) fw atoms charge.of j (j + 1) l = Ξ (j, l) ω)
    (sq : ℝ → ℝ) (o : Oracle ℝ G) (U : UncParams ℝ) (hblock : U.opt.block = false) (hsub : U.sub = 1)
    (base : Ω → PyM (Base ℝ)) (unit : ℝ) (hbase : ∀ ω, ReadFrom E P S F sy L V (u ω) (m ω) (base ω) unit) (g g' : Ω → G)
    (Z : Ω → Analyzer ℝ) (hZ : ∀ ω, conductivityAnalyzer sq o (g ω) U charge (base ω) = .ok (Z ω, g' ω)) (τ : ℕ) (h1 : 1 ≤ τ)
    (h2 : 4 * τ ≤ F) (δ : ℝ) (hδ : δ = P.stepSkip.val * P.timeStep.val / unit) (ε : ℝ) (hε : 0 < ε) :
    μ.real {ω | ∃ D, FittedRay (Z ω).diff (τ - 1) D ∧ ε ≤ |D - 3 * v / δ|} ≤ mseBound Finset.univ v C 1 τ F / (ε * τ * δ) ^ 2 := by
  obtain ⟨k1, k2, k3⟩ := C144_mscd_error μ E P S sy atoms fw hS hne hP F hn L V u m hstep charge hq Ξ h v C hC hs hΞ sq o U hblock hsub base unit
    hbase g g' Z hZ τ h1 h2
  have hΩ : Nonempty Ω := μ.nonempty_of_neZero
  have hu : 0 < unit := by rcases hbase hΩ.some with ⟨-, rfl⟩ | ⟨-, rfl⟩ | ⟨-, rfl⟩ <;> norm_num
  have hδ0 : 0 < δ := by rw [hδ]; exact div_pos hP.2.1 hu
  refine gradient_off h1 hδ0 hε (fun ω => ?_) k2 k3 fun ω D hD => totalRay_ratio hS hP (by omega) (hstep ω) hq hblock hsub (hbase ω)
    (.inr (hZ ω)) hD
  rw [(k1 ω).1, hδ]
  congr 1
  ring

/-! ### Example: two atoms that move together, steps by fair coins -/

/-- Atoms 0 and 1 make the same steps of `±1/4` along every axis at every frame, atom 2 rests. -/
noncomputable def exPaired (ω : ℕ × ℕ × Fin 3 → Bool) (i j : ℕ) : V3 ℝ := fun k =>
  if i < 2 then ∑ s ∈ Finset.range j, exSign (ω (0, s, k)) else 0

theorem exPaired_half (ω : ℕ × ℕ × Fin 3 → Bool) (i j : ℕ) : HalfCell fun k => exPaired ω i (j + 1) k - exPaired ω i j k := by
  intro k
  simp only [exPaired]
  by_cases hi : i < 2
  · rw [if_pos hi, if_pos hi, Finset.sum_range_succ, add_sub_cancel_left]
    cases ω (0, j, k) <;> norm_num [exSign]
  · simp [hi]

theorem exPaired_total (q : ℕ → ℝ) (j : ℕ) (l : Fin 3) (ω : ℕ × ℕ × Fin 3 → Bool) :
    totalMove exCube (exPaired ω) [2] [0, 1] q j (j + 1) l = (q 0 + q 1) * exSign (ω (0, j, l)) := by
  have hc : ∀ s : V3 ℝ, cart exCube s l = s l := by
    intro s
    unfold cart exCube
    simp
  simp only [totalMove, trueMove, meanOver, hc, exPaired]
  simp [Fin.sum_univ_two, Finset.sum_range_succ]
  ring

theorem exPaired_walk (c : ℝ) : RandomWalk exTosses (fun (q : ℕ × Fin 3) ω => c * exSign (ω (0, q.1, q.2))) ∧
    StepMoments exTosses (fun (q : ℕ × Fin 3) ω => c * exSign (ω (0, q.1, q.2))) (c ^ 2 / 16) (c ^ 4 / 256) := by
  obtain ⟨h, s⟩ := exTosses_walk
  have hinj : Function.Injective fun q : ℕ × Fin 3 => ((0, q.1, q.2) : ℕ × ℕ × Fin 3) := by
    rintro ⟨a, b⟩ ⟨c, d⟩ e
    simpa using e
  refine ⟨⟨?_, fun i => (h.meas _).const_mul c, fun i => (h.moment _).const_mul c, fun i => ?_⟩, fun i => ?_, fun i => ?_⟩
  · exact (h.indep.precomp hinj).comp (fun _ x => c * x) fun _ => measurable_const_mul c
  · rw [integral_const_mul, h.mean (0, i.1, i.2), mul_zero]
  · simp only [mul_pow]
    rw [integral_const_mul, s.second (0, i.1, i.2)]
    ring
  · simp only [mul_pow]
    rw [integral_const_mul]
    have := mul_le_mul_of_nonneg_left (s.fourth (0, i.1, i.2)) (show (0 : ℝ) ≤ c ^ 4 by positivity)
    linarith

theorem exPaired_ok (ω : ℕ × ℕ × Fin 3 → Bool) (F : ℕ) (hF : 2 ≤ F) : AllAnalyzed 2 id (exOracle ℝ) () exUncR
    (fromAse exNumR (exParamsF F) exSelectR 1 none (.one (wrapped F ["Li", "Li", "O"] exCube 1 (exPaired ω) fun _ _ _ => 0))) := by
  obtain ⟨n, rfl⟩ : ∃ n, F = n + 1 := ⟨F - 1, by omega⟩
  have hw : wrapped (n + 1) ["Li", "Li", "O"] exCube 1 (exPaired ω) (fun _ _ _ => 0) =
      ⟨["Li", "Li", "O"], (List.range 3).map fun i => fun k => exPaired ω i 0 k + (((0 : ℤ)) : ℝ), exCube, 1⟩ ::
        (List.range n).map fun j => ⟨["Li", "Li", "O"], (List.range 3).map fun i => fun k => exPaired ω i (j + 1) k + (((0 : ℤ)) : ℝ), exCube, 1⟩ := by
    unfold wrapped
    rw [List.range_succ_eq_map, List.map_cons, List.map_map]
    rfl
  rw [hw]
  refine C79_ase exNumR (exParamsF (n + 1)) exSelectR ["Li"] rfl rfl ?_ ?_ 3 _ _ ?_ ?_ ?_ id (exOracle ℝ) () exUncR (.off rfl rfl) le_rfl
    (by decide +kernel)
  · refine ⟨rfl, ?_, rfl, rfl, rfl, rfl⟩
    simp [exParamsF, PyNum.val]
  · show (1 : ℤ) ≤ ((n + 1 : ℕ) : ℤ)
    omega
  · simp; omega
  · rw [← hw]
    intro f hf
    obtain ⟨j, -, rfl⟩ := List.mem_map.mp hf
    exact ⟨rfl, by simp, exCube_nonsingular, "Li", by simp, by simp⟩
  · rw [List.length_map, List.length_range]
    show ((3 * 3 * (n + 1) * (n + 1) * 8 : ℕ) : ℝ) ≤ ((3 * 2 * (n + 1) * (n + 1) * 8 : ℕ) : ℝ) * 10 ^ 9
    push_cast
    nlinarith [sq_nonneg ((n : ℝ) + 1)]

/-- The hypotheses hold for the two atoms with the charges 2 and -1: over two frames the MSTD tends to 3/2, twice what two independent
atoms give, and the MSCD to 3/8; the gradients from the first interval on are off by 1/10 with a probability of at most 1/10 when there are
10⁵ frames. -/
example : ∃ J Y : ℕ → (ℕ × ℕ × Fin 3 → Bool) → Analyzer ℝ,
    (∀ F, 4 ≤ F → ∀ ω, jumpAnalyzer id (exOracle ℝ) () exUncR (fromAse exNumR (exParamsF F) exSelectR 1 none
      (.one (wrapped F ["Li", "Li", "O"] exCube 1 (exPaired ω) fun _ _ _ => 0))) = .ok (J F ω, ())) ∧
    (∀ F, 4 ≤ F → ∀ ω, conductivityAnalyzer id (exOracle ℝ) () exUncR (.array [2, -1]) (fromAse exNumR (exParamsF F) exSelectR 1 none
      (.one (wrapped F ["Li", "Li", "O"] exCube 1 (exPaired ω) fun _ _ _ => 0))) = .ok (Y F ω, ())) ∧
    ConvergesAt exTosses (fun F ω => (J F ω).diff.n) 2 (3 / 2) ∧ ConvergesAt exTosses (fun F ω => (Y F ω).diff.n) 2 (3 / 8) ∧
    exTosses.real {ω | ∃ D, FittedRay (J 100000 ω).diff 0 D ∧ 1 / 10 ≤ |D - 3 / 8|} ≤ 1 / 10 ∧
    exTosses.real {ω | ∃ D, FittedRay (Y 100000 ω).diff 0 D ∧ 1 / 10 ≤ |D - 3 / 32|} ≤ 1 / 10 := by
  have hq : ∀ l : List ℝ, Charge.array [2, -1] = .array l → l.length = 2 := by rintro l ⟨⟩; rfl
  have hex : ∀ F ω, ∃ J Y, 4 ≤ F → jumpAnalyzer id (exOracle ℝ) () exUncR (fromAse exNumR (exParamsF F) exSelectR 1 none
      (.one (wrapped F ["Li", "Li", "O"] exCube 1 (exPaired ω) fun _ _ _ => 0))) = .ok (J, ()) ∧
      conductivityAnalyzer id (exOracle ℝ) () exUncR (.array [2, -1]) (fromAse exNumR (exParamsF F) exSelectR 1 none
      (.one (wrapped F ["Li", "Li", "O"] exCube 1 (exPaired ω) fun _ _ _ => 0))) = .ok (Y, ()) := by
    intro F ω
    obtain ⟨-, ⟨J0, _, -⟩, h3⟩ := exPaired_ok ω 2 (by omega)
    by_cases hF : 4 ≤ F
    · obtain ⟨-, ⟨J, _, hJ, -⟩, h3⟩ := exPaired_ok ω F (by omega)
      obtain ⟨Y, _, hY, -⟩ := h3 (.array [2, -1]) hq
      exact ⟨J, Y, fun _ => ⟨hJ, hY⟩⟩
    · exact ⟨J0, J0, fun h => absurd h hF⟩
  choose J Y hZ using hex
  have hax : (axesOf exUncR.dimension).card = 3 := by decide +kernel
  have hg : ∀ F, DefaultGrid exNumR (exParamsF F) := by
    intro F
    refine ⟨rfl, ?_, rfl, rfl, rfl, rfl⟩
    simp [exParamsF, PyNum.val]
  have hb : ∀ F ω, ReadFrom exNumR (exParamsF F) exSelectR F ["Li", "Li", "O"] exCube 1 (exPaired ω) (fun _ _ _ => 0)
      (fromAse exNumR (exParamsF F) exSelectR 1 none (.one (wrapped F ["Li", "Li", "O"] exCube 1 (exPaired ω) fun _ _ _ => 0))) 1 :=
    fun F ω => Or.inl ⟨rfl, rfl⟩
  have hδ : ∀ F, (2 : ℝ) = (exParamsF F).stepSkip.val * (exParamsF F).timeStep.val / 1 := fun F => by simp [exParamsF, PyNum.val]
  have t1 : ∀ j l ω, totalMove exCube (exPaired ω) [2] [0, 1] (fun _ => 1) j (j + 1) l = 2 * exSign (ω (0, j, l)) := by
    intro j l ω
    rw [exPaired_total]
    norm_num
  have t2 : ∀ j l ω, totalMove exCube (exPaired ω) [2] [0, 1] (Charge.array [2, -1]).of j (j + 1) l = 1 * exSign (ω (0, j, l)) := by
    intro j l ω
    rw [exPaired_total]
    norm_num [Charge.of]
  have w1 := exPaired_walk 2
  have w2 := exPaired_walk 1
  have w2s : StepMoments exTosses (fun (q : ℕ × Fin 3) ω => 1 * exSign (ω (0, q.1, q.2))) (1 ^ 2 / 16) (2 ^ 4 / 256) :=
    ⟨w2.2.second, fun i => (w2.2.fourth i).trans (by norm_num)⟩
  obtain ⟨c1, c2⟩ := C144_limit exTosses exNumR exParamsF exSelectR ["Li", "Li", "O"] [0, 1] [2] (.species ["Li"] rfl rfl) (by simp) hg
    (fun F => le_refl _) exCube 1 exPaired (fun _ _ _ _ => 0) (fun ω i _ j => exPaired_half ω i j) (.array [2, -1]) hq _ _ w1.1 w2.1 _ _ _
    (by norm_num) w1.2 w2s t1 t2 id (exOracle ℝ) exUncR rfl rfl _ 1 hb (fun _ _ => ()) (fun _ _ => ()) J Y 2 (by norm_num)
    (fun F hF ω => (hZ F ω (by omega)).1) (fun F hF ω => (hZ F ω (by omega)).2)
  have f1 := C144_jump_fit exTosses exNumR (exParamsF 100000) exSelectR ["Li", "Li", "O"] [0, 1] [2] (.species ["Li"] rfl rfl) (by simp) (hg _) 100000
    (le_refl _) exCube 1 exPaired (fun _ _ _ _ => 0) (fun ω i _ j _ => exPaired_half ω i j) _ w1.1 _ _
    (by norm_num) w1.2 t1 id (exOracle ℝ) exUncR rfl rfl _ 1 (hb _) (fun _ => ()) (fun _ => ()) (J 100000) (fun ω => (hZ _ ω (by norm_num)).1) 1
    (by norm_num) (by norm_num) 2 (hδ _) (1 / 10) (by norm_num)
  have f2 := C144_conductivity_fit exTosses exNumR (exParamsF 100000) exSelectR ["Li", "Li", "O"] [0, 1] [2] (.species ["Li"] rfl rfl) (by simp) (hg _) 100000
    (le_refl _) exCube 1 exPaired (fun _ _ _ _ => 0) (fun ω i _ j _ => exPaired_half ω i j) (.array [2, -1]) hq _ w2.1 _ _
    (by norm_num) w2s t2 id (exOracle ℝ) exUncR rfl rfl _ 1 (hb _) (fun _ => ()) (fun _ => ()) (Y 100000) (fun ω => (hZ _ ω (by norm_num)).2) 1
    (by norm_num) (by norm_num) 2 (hδ _) (1 / 10) (by norm_num)
  refine ⟨J, Y, fun F hF ω => (hZ F ω hF).1, fun F hF ω => (hZ F ω hF).2, ?_, ?_, ?_, ?_⟩
  · rw [hax] at c1
    norm_num at c1
    exact c1
  · norm_num at c2
    exact c2
  · rw [hax] at f1
    norm_num [mseBound, hax] at f1 ⊢
    linarith
  · norm_num [mseBound] at f2 ⊢
    linarith

end Kinisi
