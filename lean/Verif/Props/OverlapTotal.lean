import Verif.Lemmas.Groups
import Verif.Props.Overlap
import Verif.Props.LongTotal
import Verif.Props.ErrorBar

/-!
# Are the error bars of the reported total mean squared displacements of a random walk right? C159
-/

set_option linter.unusedSectionVars false
set_option linter.unusedVariables false

namespace Kinisi
open MeasureTheory ProbabilityTheory Spec

variable {Ω : Type} [MeasurableSpace Ω] {μ : Measure Ω} [IsProbabilityMeasure μ] {G : Type}

/-! ## The total displacement as the displacement of a single particle -/

/-- Numbers the steps of infinitely many particles; the first `F` steps of particle 0 keep their number. -/
def stepNo (F i j : ℕ) : ℕ := if i = 0 ∧ j < F then j else F + Nat.pair i j

theorem stepNo_injective (F : ℕ) : Function.Injective fun q : ℕ × ℕ × Fin 3 => (stepNo F q.1 q.2.1, q.2.2) := by
  rintro ⟨i, j, l⟩ ⟨i', j', l'⟩ e
  obtain ⟨e1, e2⟩ := Prod.mk.inj e
  dsimp only at e1 e2
  unfold stepNo at e1
  split_ifs at e1 with a b b
  · rw [a.1, b.1, e1, e2]
  · omega
  · omega
  · obtain ⟨c1, c2⟩ := Nat.pair_eq_pair.1 (Nat.add_left_cancel e1)
    rw [c1, c2, e2]

/-- The path of a single particle with the steps `Ξ`. -/
noncomputable def lonePath (F : ℕ) (Ξ : ℕ × Fin 3 → Ω → ℝ) (ω : Ω) (i j : ℕ) : V3 ℝ := fun l => ∑ s ∈ Finset.range j, Ξ (stepNo F i s, l) ω

theorem lonePath_step (F : ℕ) (Ξ : ℕ × Fin 3 → Ω → ℝ) (i j : ℕ) (l : Fin 3) (ω : Ω) : walkStep unitCell (lonePath F Ξ) [] i j l ω = Ξ (stepNo F i j, l) ω := by
  have hc : ∀ s : V3 ℝ, cart unitCell s l = s l := by
    intro s
    unfold cart unitCell
    simp
  simp only [walkStep, trueMove, meanOver, hc, lonePath]
  rw [Finset.sum_range_succ]
  simp

theorem lonePath_move {L : M3 ℝ} {u : Ω → ℕ → ℕ → V3 ℝ} {fw atoms : List ℕ} {q : ℕ → ℝ} {Ξ : ℕ × Fin 3 → Ω → ℝ}
    (hΞ : ∀ j l ω, totalMove L (u ω) fw atoms q j (j + 1) l = Ξ (j, l) ω) {F s n : ℕ} (h : s + n ≤ F) (l : Fin 3) (ω : Ω) :
    trueMove unitCell (lonePath F Ξ ω) [] 0 s (s + n) l = totalMove L (u ω) fw atoms q s (s + n) l := by
  rw [trueMove_steps, totalMove_steps, Finset.sum_Ico_eq_sum_range, Nat.add_sub_cancel_left]
  refine Finset.sum_congr rfl fun j hj => ?_
  rw [Finset.mem_range] at hj
  rw [lonePath_step, hΞ]
  unfold stepNo
  rw [if_pos ⟨rfl, by omega⟩]

theorem lonePath_reported {L : M3 ℝ} {u : Ω → ℕ → ℕ → V3 ℝ} {fw atoms : List ℕ} {q : ℕ → ℝ} {Ξ : ℕ × Fin 3 → Ω → ℝ}
    (hΞ : ∀ j l ω, totalMove L (u ω) fw atoms q j (j + 1) l = Ξ (j, l) ω) (A : Finset (Fin 3)) {F τ : ℕ} (h2 : τ ≤ F) (ω : Ω) :
    reportedMsd A unitCell (lonePath F Ξ ω) [] [0] F τ = reportedTotal A L (u ω) fw atoms q F τ := by
  have e : ∀ s n, s + n ≤ F → trueMove unitCell (lonePath F Ξ ω) [] 0 s (s + n) = totalMove L (u ω) fw atoms q s (s + n) := fun s n h => funext fun l => lonePath_move hΞ h l ω
  unfold reportedMsd reportedTotal
  have e0 := e 0 (τ - 1) (by omega)
  rw [Nat.zero_add] at e0
  simp only [List.map_cons, List.map_nil, List.sum_cons, List.sum_nil, add_zero, List.length_singleton, Nat.cast_one, one_mul, e0]
  congr 2
  refine Finset.sum_congr rfl fun s hs => ?_
  rw [Finset.mem_range] at hs
  rw [e s τ (by omega)]

/-- The array of the totals of the array `a`. -/
def loneArr (q : ℕ → ℝ) (a : Arr3 ℝ) : Arr3 ℝ := ⟨1, a.n1, fun _ k l => ∑ i ∈ Finset.range a.n0, q i * a.get i k l⟩

theorem loneArr_windows {L : M3 ℝ} {u : Ω → ℕ → ℕ → V3 ℝ} {fw atoms : List ℕ} {q : ℕ → ℝ} {Ξ : ℕ × Fin 3 → Ω → ℝ}
    (hΞ : ∀ j l ω, totalMove L (u ω) fw atoms q j (j + 1) l = Ξ (j, l) ω) {F τ : ℕ} (h2 : τ ≤ F) {ω : Ω} {a : Arr3 ℝ}
    (ha : TrueWindows L (u ω) fw atoms F τ a) : TrueWindows unitCell (lonePath F Ξ ω) [] [0] F τ (loneArr q a) := by
  obtain ⟨a0, a1, aw⟩ := ha
  have tot : ∀ s t k l, (∀ i, (hi : i < atoms.length) → a.get i k l = trueMove L (u ω) fw atoms[i] s t l) → (loneArr q a).get 0 k l = totalMove L (u ω) fw atoms q s t l := by
    intro s t k l h
    show ∑ i ∈ Finset.range a.n0, q i * a.get i k l = _
    unfold totalMove
    rw [a0, Finset.sum_range]
    exact Finset.sum_congr rfl fun i _ => by rw [h i i.2]; rfl
  refine ⟨rfl, a1, ?_⟩
  intro s hs
  obtain rfl : s = 0 := by simpa using hs
  refine ⟨fun l => ?_, fun k hk l => ?_⟩
  · have := lonePath_move hΞ (show 0 + (τ - 1) ≤ F by omega) l ω
    rw [Nat.zero_add] at this
    rw [tot 0 (τ - 1) 0 l fun i hi => (aw i hi).1 l]
    exact this.symm
  · rw [tot k (k + τ) (k + 1) l fun i hi => (aw i hi).2 k hk l]
    exact (lonePath_move hΞ (show k + τ ≤ F by omega) l ω).symm

theorem loneArr_var (A : Finset (Fin 3)) (q : ℕ → ℝ) (a : Arr3 ℝ) :
    varOn (pairs (loneArr q a)) (sqLen A (loneArr q a)) = varOn (Finset.range a.n1) (sqSum A q a) := by
  have s : ∀ f : ℕ × ℕ → ℝ, ∑ p ∈ pairs (loneArr q a), f p = ∑ k ∈ Finset.range a.n1, f (0, k) := by
    intro f
    unfold pairs loneArr
    rw [Finset.sum_product]
    simp
  have c : (pairs (loneArr q a)).card = (Finset.range a.n1).card := by
    unfold pairs loneArr
    simp
  have v : ∀ k, sqLen A (loneArr q a) (0, k) = sqSum A q a k := fun k => rfl
  unfold varOn meanOn
  rw [s, s, c]
  simp only [v]

theorem lone_walk {Ξ : ℕ × Fin 3 → Ω → ℝ} (h : RandomWalk μ Ξ) (F : ℕ) : RandomWalk μ fun (q : ℕ × ℕ × Fin 3) => Ξ (stepNo F q.1 q.2.1, q.2.2) :=
  ⟨h.indep.precomp (stepNo_injective F), fun i => h.meas _, fun i => h.moment _, fun i => h.mean _⟩

/-- Variance and mean reported variance for a total displacement that makes independent normal steps. -/
theorem total_stats {Ξ : ℕ × Fin 3 → Ω → ℝ} (h : RandomWalk μ Ξ) {σ : ℝ} (hs : NormalMoments μ Ξ σ) {L : M3 ℝ} {u : Ω → ℕ → ℕ → V3 ℝ} {fw atoms : List ℕ} {q : ℕ → ℝ}
    (hΞ : ∀ j l ω, totalMove L (u ω) fw atoms q j (j + 1) l = Ξ (j, l) ω) (A : Finset (Fin 3)) {F τ : ℕ} (h1 : 1 ≤ τ) (h2 : τ + 1 ≤ F)
    (a : Ω → Arr3 ℝ) (ha : ∀ ω, TrueWindows L (u ω) fw atoms F τ (a ω)) :
    MemLp (fun ω => reportedTotal A L (u ω) fw atoms q F τ) 2 μ ∧
    Var[fun ω => reportedTotal A L (u ω) fw atoms q F τ; μ] = 2 * A.card * σ ^ 4 * windowSum τ (F - τ + 1) / ((F - τ + 1 : ℕ) : ℝ) ^ 2 ∧
    Integrable (fun ω => varOn (Finset.range (a ω).n1) (sqSum A q (a ω))) μ ∧
    (((F - τ + 1 : ℕ) : ℝ) - 1) * ∫ ω, varOn (Finset.range (a ω).n1) (sqSum A q (a ω)) ∂μ =
      2 * A.card * σ ^ 4 * (((F - τ + 1 : ℕ) : ℝ) * (τ : ℝ) ^ 2 - (2 * τ - 1)) + (A.card : ℝ) ^ 2 * σ ^ 4 * (1 - 1 / ((F - τ + 1 : ℕ) : ℝ)) -
      ((F - τ + 1 : ℕ) : ℝ) * Var[fun ω => reportedTotal A L (u ω) fw atoms q F τ; μ] := by
  have hw := lone_walk h F
  have hm : NormalMoments μ (fun (q : ℕ × ℕ × Fin 3) => Ξ (stepNo F q.1 q.2.1, q.2.2)) σ := ⟨fun i => hs.second _, fun i => hs.fourth _⟩
  have hξ : ∀ i ∈ [0], ∀ j l ω, walkStep unitCell (lonePath F Ξ) [] i j l ω = Ξ (stepNo F i j, l) ω := fun i _ j l ω => lonePath_step F Ξ i j l ω
  obtain ⟨m1, m2⟩ := reportedMsd_var (F := F) hw hm (List.nodup_singleton 0) (by simp) hξ A h1
  obtain ⟨i1, i2⟩ := mean_varOn_win hw hm (List.nodup_singleton 0) (by simp) hξ A h1 (show τ ≤ F by omega) (show 2 ≤ 1 * (F - τ + 1) by omega) _
    fun ω => loneArr_windows hΞ (show τ ≤ F by omega) (ha ω)
  simp only [lonePath_reported hΞ A (show τ ≤ F by omega), loneArr_var, List.length_singleton, Nat.cast_one, one_mul, mul_one] at m1 m2 i1 i2
  exact ⟨m1, m2, i1, i2⟩

/-! ## What a run reports -/

theorem half_entry {N F τ : ℕ} (hN : 1 ≤ N) (h1 : 1 ≤ τ) (h2 : 4 * τ ≤ F ∨ 2 ≤ N ∧ 2 * τ ≤ F) :
    (resolved N F ((List.range F).map fun i => i + 1))[τ - 1]? = some τ ∧
    ((resolved N F ((List.range F).map fun i => i + 1)).take ((resolved N F ((List.range F).map fun i => i + 1)).length / 2))[τ - 1]? = some τ := by
  refine ⟨resolved_all hN h1 (by omega), ?_⟩
  rcases h2 with h2 | ⟨hN2, h2⟩
  · exact resolved_half hN h1 h2
  · have e := resolved_pair (F := F) hN2
    rw [e, List.length_map, List.length_range, List.getElem?_take, if_pos (by omega), List.getElem?_map, List.getElem?_range (by omega), Option.map_some, Nat.sub_add_cancel h1]

theorem run_entry_mstd {E : Num ℝ} {P : Params ℝ} {S : Select ℝ} {sy : List String} {atoms fw : List ℕ} (hS : Picks S sy atoms fw) (hne : atoms ≠ []) (hP : DefaultGrid E P) {F : ℕ}
    (hn : (F : ℤ) ≤ P.nSteps) {L : M3 ℝ} {V : ℝ} {u : ℕ → ℕ → V3 ℝ} {m : ℕ → ℕ → Fin 3 → ℤ} (hstep : ∀ i < sy.length, ∀ j, j + 1 < F → HalfCell fun k => u i (j + 1) k - u i j k)
    {sq : ℝ → ℝ} (hsq : IsSqrt sq) {o : Oracle ℝ G} {U : UncParams ℝ} (hblock : U.opt.block = false) (hsub : U.sub = 1) {base : PyM (Base ℝ)} {unit : ℝ} (hbase : ReadFrom E P S F sy L V u m base unit)
    {g g' : G} {Z : Analyzer ℝ} (hZ : jumpAnalyzer sq o g U base = .ok (Z, g')) {τ : ℕ} (h1 : 1 ≤ τ) (h2 : 4 * τ ≤ F ∨ 2 ≤ atoms.length ∧ 2 * τ ≤ F) :
    ∃ a, TrueWindows L u fw atoms F τ a ∧ Z.diff.dt[τ - 1]? = some ((τ : ℝ) * P.stepSkip.val * P.timeStep.val / unit) ∧
      Z.diff.n[τ - 1]? = some (reportedTotal (axesOf U.dimension) L u fw atoms (fun _ => 1) F τ) ∧
      Z.diff.v[τ - 1]? = some (some (varOn (Finset.range a.n1) (sqSum (axesOf U.dimension) (fun _ => 1) a) / ((F : ℝ) / τ))) := by
  have hN1 : 1 ≤ atoms.length := List.length_pos_of_ne_nil hne
  obtain ⟨hr, hr'⟩ := half_entry hN1 h1 h2
  obtain ⟨B, hB, -, hm⟩ := jump_inv hZ
  obtain ⟨taus, -, ht⟩ := read_base hS hP (by omega) hstep hbase hB
  obtain ⟨e1, e2⟩ := mstd_of_parsed ht hblock hsub hm
  have := ht.full hn
  subst this
  obtain ⟨c1, c0, a, k0, ha, hno⟩ := base_entry hP hbase hB ht (by omega) h1 (by omega) hr
  obtain ⟨hlt, -⟩ := List.getElem?_eq_some_iff.1 hr'
  refine ⟨a, ha, ?_, ?_, ?_⟩
  · rw [e2, List.getElem?_map, hr']; rfl
  · rw [e1, List.getElem?_map, hr']; rfl
  · obtain ⟨-, -, -, -, -, ds, k1, k2⟩ := C32_variance_mstd sq hsq o U.opt hblock _ _ _ _ _ c1 (fun a ha => by rw [c0 a ha]; exact hN1) _ _ _ hm
    rw [hsub] at k1
    obtain rfl : B.disp3d = ds := Except.ok.inj ((pyStride_one _).symm.trans k1)
    obtain ⟨a', no, s, f1, f2, f3, -⟩ := k2 (τ - 1) (by rw [e1, List.length_map]; exact hlt)
    rw [k0] at f1
    rw [hno] at f2
    rw [f3, ← Option.some.inj f1, ← Option.some.inj f2, ha.1, mul_div_cancel_left₀ _ (by exact_mod_cast (by omega : atoms.length ≠ 0))]

theorem run_entry_mscd {E : Num ℝ} {P : Params ℝ} {S : Select ℝ} {sy : List String} {atoms fw : List ℕ} (hS : Picks S sy atoms fw) (hne : atoms ≠ []) (hP : DefaultGrid E P) {F : ℕ}
    (hn : (F : ℤ) ≤ P.nSteps) {L : M3 ℝ} {V : ℝ} {u : ℕ → ℕ → V3 ℝ} {m : ℕ → ℕ → Fin 3 → ℤ} (hstep : ∀ i < sy.length, ∀ j, j + 1 < F → HalfCell fun k => u i (j + 1) k - u i j k)
    {charge : Charge ℝ} (hq : ∀ l, charge = .array l → l.length = atoms.length)
    {sq : ℝ → ℝ} (hsq : IsSqrt sq) {o : Oracle ℝ G} {U : UncParams ℝ} (hblock : U.opt.block = false) (hsub : U.sub = 1) {base : PyM (Base ℝ)} {unit : ℝ} (hbase : ReadFrom E P S F sy L V u m base unit)
    {g g' : G} {Z : Analyzer ℝ} (hZ : conductivityAnalyzer sq o g U charge base = .ok (Z, g')) {τ : ℕ} (h1 : 1 ≤ τ) (h2 : 4 * τ ≤ F ∨ 2 ≤ atoms.length ∧ 2 * τ ≤ F) :
    ∃ a, TrueWindows L u fw atoms F τ a ∧ Z.diff.dt[τ - 1]? = some ((τ : ℝ) * P.stepSkip.val * P.timeStep.val / unit) ∧
      Z.diff.n[τ - 1]? = some (reportedTotal Finset.univ L u fw atoms charge.of F τ) ∧
      Z.diff.v[τ - 1]? = some (some (varOn (Finset.range a.n1) (sqSum Finset.univ charge.of a) / ((F : ℝ) / τ))) := by
  have hN1 : 1 ≤ atoms.length := List.length_pos_of_ne_nil hne
  obtain ⟨hr, hr'⟩ := half_entry hN1 h1 h2
  obtain ⟨B, hB, -, hm⟩ := conductivity_inv hZ
  obtain ⟨taus, -, ht⟩ := read_base hS hP (by omega) hstep hbase hB
  obtain ⟨e1, e2⟩ := mscd_of_parsed ht hq hblock hsub hm
  have := ht.full hn
  subst this
  obtain ⟨c1, c0, a, k0, ha, hno⟩ := base_entry hP hbase hB ht (by omega) h1 (by omega) hr
  obtain ⟨hlt, -⟩ := List.getElem?_eq_some_iff.1 hr'
  refine ⟨a, ha, ?_, ?_, ?_⟩
  · rw [e2, List.getElem?_map, hr']; rfl
  · rw [e1, List.getElem?_map, hr']; rfl
  · obtain ⟨-, -, -, -, -, ds, k1, k2⟩ := C32_variance_mscd sq hsq o U.opt hblock _ _ _ _ _ _ c1 atoms.length hN1 c0 hq _ _ _ hm
    rw [hsub] at k1
    obtain rfl : B.disp3d = ds := Except.ok.inj ((pyStride_one _).symm.trans k1)
    obtain ⟨a', no, s, f1, f2, f3, -⟩ := k2 (τ - 1) (by rw [e1, List.length_map]; exact hlt)
    rw [k0] at f1
    rw [hno] at f2
    rw [f3, ← Option.some.inj f1, ← Option.some.inj f2, mul_div_cancel_left₀ _ (by exact_mod_cast (by omega : atoms.length ≠ 0))]

/-! ## The bounds -/

theorem total_bars {Ξ : ℕ × Fin 3 → Ω → ℝ} (h : RandomWalk μ Ξ) {σ : ℝ} (hs : NormalMoments μ Ξ σ) {L : M3 ℝ} {u : Ω → ℕ → ℕ → V3 ℝ} {fw atoms : List ℕ} {q : ℕ → ℝ}
    (hΞ : ∀ j l ω, totalMove L (u ω) fw atoms q j (j + 1) l = Ξ (j, l) ω) (A : Finset (Fin 3)) {F τ : ℕ} (h1 : 1 ≤ τ) (h3 : 3 * τ ≤ F)
    (a : Ω → Arr3 ℝ) (ha : ∀ ω, TrueWindows L (u ω) fw atoms F τ (a ω)) (n v : Ω → ℝ) (hn : n = fun ω => reportedTotal A L (u ω) fw atoms q F τ)
    (hv : v = fun ω => varOn (Finset.range (a ω).n1) (sqSum A q (a ω)) / ((F : ℝ) / τ)) :
    MemLp n 2 μ ∧ Integrable v μ ∧ 2 / 3 * sideBySideVar A σ 1 F τ ≤ Var[n; μ] ∧ Var[n; μ] ≤ sideBySideVar A σ 1 F τ ∧
      (1 - 2 / (τ * ((F - τ + 1 : ℕ) : ℝ)) - τ / F) * Var[n; μ] ≤ ∫ ω, v ω ∂μ ∧
      ∫ ω, v ω ∂μ ≤ 3 / 2 * (((F - τ + 1 : ℕ) : ℝ) / (((F - τ + 1 : ℕ) : ℝ) - 1) * (1 + 1 / (2 * ((F - τ + 1 : ℕ) : ℝ)))) * Var[n; μ] := by
  obtain ⟨m1, m2, i1, i2⟩ := total_stats h hs hΞ A h1 (show τ + 1 ≤ F by omega) a ha
  obtain ⟨b1, b2⟩ := var_bounds A σ Nat.one_pos h1 h3
  rw [Nat.cast_one, one_mul, ← m2] at b1 b2
  rw [← hn] at m1 m2 i2 b1 b2
  have hT' : (1 : ℝ) ≤ τ := by exact_mod_cast h1
  have hWr : ((F - τ + 1 : ℕ) : ℝ) + τ - 1 = F := by
    push_cast [Nat.cast_sub (show τ ≤ F by omega)]
    ring
  have hW' : 2 * (τ : ℝ) + 1 ≤ ((F - τ + 1 : ℕ) : ℝ) := by exact_mod_cast (by omega : 2 * τ + 1 ≤ F - τ + 1)
  have hF0 : (0 : ℝ) < F := by exact_mod_cast (by omega : 0 < F)
  have h3' : 3 * (τ : ℝ) ≤ F := by exact_mod_cast h3
  have hd3 : (A.card : ℝ) ≤ 3 := by exact_mod_cast (A.card_le_univ.trans (by simp))
  have eS : sideBySideVar A σ 1 F τ = (2 * A.card * σ ^ 4 * (τ : ℝ) ^ 2) / ((F : ℝ) / τ) := by
    unfold sideBySideVar
    rw [Nat.cast_one, one_mul]
  have hno0 : (0 : ℝ) < (F : ℝ) / τ := by positivity
  have hρ3 : (τ : ℝ) / F ≤ 1 / 3 := by
    rw [div_le_div_iff₀ hF0 (by norm_num)]
    linarith
  obtain ⟨l1, l2⟩ := varOn_bounds (d := A.card) (B := σ ^ 4) (N := 1) (ρ := τ / F) (Nat.cast_nonneg _) hd3 (by positivity) le_rfl hT' hW' (variance_nonneg n μ)
    (by rw [hWr, div_mul_cancel₀ _ hF0.ne']) hρ3 (by
      rw [hWr]
      refine b2.trans (le_of_eq ?_)
      rw [eS]
      field_simp) (by rw [one_mul, i2]; ring)
  rw [div_one] at l1
  rw [one_mul] at l2
  set w := sideBySideVar A σ 1 F τ with hw
  have low : (1 - 2 / (τ * ((F - τ + 1 : ℕ) : ℝ)) - τ / F) * w ≤ ∫ ω, v ω ∂μ := by
    rw [hv, integral_div, eS, ← mul_div_assoc]
    exact div_le_div_of_nonneg_right l1 hno0.le
  have up : ∫ ω, v ω ∂μ ≤ ((F - τ + 1 : ℕ) : ℝ) / (((F - τ + 1 : ℕ) : ℝ) - 1) * (1 + 1 / (2 * ((F - τ + 1 : ℕ) : ℝ))) * w := by
    rw [hv, integral_div, eS]
    exact (div_le_div_of_nonneg_right l2 hno0.le).trans (le_of_eq (mul_div_assoc _ _ _))
  have hX0 : 0 ≤ 1 - 2 / (τ * ((F - τ + 1 : ℕ) : ℝ)) - τ / F := by
    have x : 2 / (τ * ((F - τ + 1 : ℕ) : ℝ)) ≤ 2 / 3 := by
      rw [div_le_div_iff₀ (by nlinarith) (by norm_num)]
      nlinarith
    linarith
  have hC0 : 0 ≤ ((F - τ + 1 : ℕ) : ℝ) / (((F - τ + 1 : ℕ) : ℝ) - 1) * (1 + 1 / (2 * ((F - τ + 1 : ℕ) : ℝ))) :=
    mul_nonneg (div_nonneg (by linarith) (by linarith)) (by positivity)
  refine ⟨m1, by rw [hv]; exact i1.div_const _, b1, b2, (mul_le_mul_of_nonneg_left b2 hX0).trans low, up.trans ?_⟩
  have : w ≤ 3 / 2 * Var[n; μ] := by linarith
  calc _ ≤ _ * (3 / 2 * Var[n; μ]) := mul_le_mul_of_nonneg_left this hC0
    _ = _ := by ring

theorem total_longest {Ξ : ℕ × Fin 3 → Ω → ℝ} (h : RandomWalk μ Ξ) {σ : ℝ} (hσ : 0 < σ) (hs : NormalMoments μ Ξ σ) {L : M3 ℝ} {u : Ω → ℕ → ℕ → V3 ℝ} {fw atoms : List ℕ} {q : ℕ → ℝ}
    (hΞ : ∀ j l ω, totalMove L (u ω) fw atoms q j (j + 1) l = Ξ (j, l) ω) (A : Finset (Fin 3)) (hA : A.Nonempty) {τ : ℕ} (h12 : 12 ≤ τ)
    (a : Ω → Arr3 ℝ) (ha : ∀ ω, TrueWindows L (u ω) fw atoms (2 * τ) τ (a ω)) (n v : Ω → ℝ) (hn : n = fun ω => reportedTotal A L (u ω) fw atoms q (2 * τ) τ)
    (hv : v = fun ω => varOn (Finset.range (a ω).n1) (sqSum A q (a ω)) / (((2 * τ : ℕ) : ℝ) / τ)) :
    MemLp n 2 μ ∧ Integrable v μ ∧ ∫ ω, v ω ∂μ ≤ 3 / 5 * Var[n; μ] ∧ 0 < Var[n; μ] := by
  obtain ⟨m1, m2, i1, i2⟩ := total_stats h hs hΞ A (show 1 ≤ τ by omega) (show τ + 1 ≤ 2 * τ by omega) a ha
  have hT' : (12 : ℝ) ≤ τ := by exact_mod_cast h12
  have hd3 : (A.card : ℝ) ≤ 3 := by exact_mod_cast (A.card_le_univ.trans (by simp))
  have eW : ((2 * τ - τ + 1 : ℕ) : ℝ) = τ + 1 := by
    rw [show 2 * τ - τ + 1 = τ + 1 by omega]
    push_cast
    ring
  have eQ : windowSum τ (2 * τ - τ + 1) = (2 * (τ + 1) * τ * (2 * (τ : ℝ) ^ 2 + 1) - (τ : ℝ) ^ 2 * ((τ : ℝ) ^ 2 - 1)) / 6 - (2 * τ - 1) := by
    have := sharedSum_long (show τ ≤ 2 * τ - τ + 1 by omega)
    rw [eW] at this
    unfold windowSum
    linarith
  rw [eW, eQ] at m2
  rw [eW] at i2
  rw [← hn] at m1 m2 i2
  have hb := half_bound (d := A.card) (B := σ ^ 4) (T := τ) (V := Var[n; μ]) (E := ∫ ω, varOn (Finset.range (a ω).n1) (sqSum A q (a ω)) ∂μ) (Nat.cast_nonneg _) hd3 (by positivity) hT' m2
    (by rw [← i2]; ring)
  refine ⟨m1, by rw [hv]; exact i1.div_const _, ?_, ?_⟩
  · have e : (((2 * τ : ℕ) : ℝ) / τ) = 2 := by
      have : (τ : ℝ) ≠ 0 := by linarith
      push_cast
      field_simp
    rw [hv]
    simp only [e]
    rw [integral_div]
    exact hb
  · rw [m2]
    have hc : (0 : ℝ) < A.card := by exact_mod_cast Finset.card_pos.2 hA
    refine div_pos (mul_pos (by positivity) ?_) (by positivity)
    obtain ⟨t, ht, e⟩ : ∃ t : ℝ, 0 ≤ t ∧ (τ : ℝ) = 12 + t := ⟨τ - 12, by linarith, by ring⟩
    rw [e]
    ring_nf
    positivity

/-! ## C159 -/

/-- **C159 (MSTD).** The total displacement of the atoms makes independent normal steps of variance `σ²` along every axis; within one step the atoms may move together in any way.  In an
analysis of `F` frames with all intervals, consider an interval of `τ` frames, at most a quarter of `F`, or a third if there are two or more atoms.  The variance of the reported MSTD lies between 2/3 of
the variance for `F / τ` independent windows and all of it: the number of atoms does not enter.  The reported variance is on average not below the true one, apart from the factor
`1 - 2 / (τ W) - τ / F`, `W = F - τ + 1`, and not above 3/2 of it, apart from a factor that tends to 1 with the number of windows. -/
theorem C159_mstd (μ : Measure Ω) [IsProbabilityMeasure μ] (E : Num ℝ) (P : Params ℝ) (S : Select ℝ) (sy : List String)
    (atoms fw : List ℕ) (hS : Picks S sy atoms fw) (hne : atoms ≠ []) (hP : DefaultGrid E P) (F : ℕ)
    (hn : (F : ℤ) ≤ P.nSteps) (L : M3 ℝ) (V : ℝ) (u : Ω → ℕ → ℕ → V3 ℝ) (m : Ω → ℕ → ℕ → Fin 3 → ℤ)
    (hstep : ∀ ω, ∀ i < sy.length, ∀ j, j + 1 < F → HalfCell fun k => u ω i (j + 1) k - u ω i j k)
    (Ξ : ℕ × Fin 3 → Ω → ℝ) (h : RandomWalk μ Ξ) (σ : ℝ) (hs : NormalMoments μ Ξ σ)
    (hΞ : ∀ j l ω, totalMove L (u ω) fw atoms (fun _ => 1) j (j + 1) l = Ξ (j, l) ω)
    (sq : ℝ → ℝ) (hsq : IsSqrt sq) (o : Oracle ℝ G) (U : UncParams ℝ) (hblock : U.opt.block = false) (hsub : U.sub = 1)
    (base : Ω → PyM (Base ℝ)) (unit : ℝ) (hbase : ∀ ω, ReadFrom E P S F sy L V (u ω) (m ω) (base ω) unit) (g g' : Ω → G)
    (Z : Ω → Analyzer ℝ) (hZ : ∀ ω, jumpAnalyzer sq o (g ω) U (base ω) = .ok (Z ω, g' ω)) (τ : ℕ) (h1 : 1 ≤ τ) (h2 : 4 * τ ≤ F ∨ 2 ≤ atoms.length ∧ 3 * τ ≤ F) :
    ∃ n v : Ω → ℝ,
      (∀ ω, (Z ω).diff.dt[τ - 1]? = some ((τ : ℝ) * P.stepSkip.val * P.timeStep.val / unit) ∧ (Z ω).diff.n[τ - 1]? = some (n ω) ∧ (Z ω).diff.v[τ - 1]? = some (some (v ω))) ∧
      MemLp n 2 μ ∧ Integrable v μ ∧
      2 / 3 * sideBySideVar (axesOf U.dimension) σ 1 F τ ≤ Var[n; μ] ∧ Var[n; μ] ≤ sideBySideVar (axesOf U.dimension) σ 1 F τ ∧
      (1 - 2 / (τ * ((F - τ + 1 : ℕ) : ℝ)) - τ / F) * Var[n; μ] ≤ ∫ ω, v ω ∂μ ∧
      ∫ ω, v ω ∂μ ≤ 3 / 2 * (((F - τ + 1 : ℕ) : ℝ) / (((F - τ + 1 : ℕ) : ℝ) - 1) * (1 + 1 / (2 * ((F - τ + 1 : ℕ) : ℝ)))) * Var[n; μ] := by
  have all : ∀ ω, _ := fun ω => run_entry_mstd (fw := fw) hS hne hP hn (hstep ω) hsq hblock hsub (hbase ω) (hZ ω) h1 (by omega)
  choose a ha all using all
  exact ⟨_, _, fun ω => all ω, total_bars h hs hΞ (axesOf U.dimension) h1 (by omega) a ha _ _ rfl rfl⟩

/-- **C159 (MSCD).** The same for the displacements weighted by the charges; always along three axes (C31). -/
theorem C159_mscd (μ : Measure Ω) [IsProbabilityMeasure μ] (E : Num ℝ) (P : Params ℝ) (S : Select ℝ) (sy : List String)
    (atoms fw : List ℕ) (hS : Picks S sy atoms fw) (hne : atoms ≠ []) (hP : DefaultGrid E P) (F : ℕ)
    (hn : (F : ℤ) ≤ P.nSteps) (L : M3 ℝ) (V : ℝ) (u : Ω → ℕ → ℕ → V3 ℝ) (m : Ω → ℕ → ℕ → Fin 3 → ℤ)
    (hstep : ∀ ω, ∀ i < sy.length, ∀ j, j + 1 < F → HalfCell fun k => u ω i (j + 1) k - u ω i j k)
    (charge : Charge ℝ) (hq : ∀ l, charge = .array l → l.length = atoms.length)
    (Ξ : ℕ × Fin 3 → Ω → ℝ) (h : RandomWalk μ Ξ) (σ : ℝ) (hs : NormalMoments μ Ξ σ)
    (hΞ : ∀ j l ω, totalMove L (u ω) fw atoms charge.of j (j + 1) l = Ξ (j, l) ω)
    (sq : ℝ → ℝ) (hsq : IsSqrt sq) (o : Oracle ℝ G) (U : UncParams ℝ) (hblock : U.opt.block = false) (hsub : U.sub = 1)
    (base : Ω → PyM (Base ℝ)) (unit : ℝ) (hbase : ∀ ω, ReadFrom E P S F sy L V (u ω) (m ω) (base ω) unit) (g g' : Ω → G)
    (Z : Ω → Analyzer ℝ) (hZ : ∀ ω, conductivityAnalyzer sq o (g ω) U charge (base ω) = .ok (Z ω, g' ω)) (τ : ℕ) (h1 : 1 ≤ τ) (h2 : 4 * τ ≤ F ∨ 2 ≤ atoms.length ∧ 3 * τ ≤ F) :
    ∃ n v : Ω → ℝ,
      (∀ ω, (Z ω).diff.dt[τ - 1]? = some ((τ : ℝ) * P.stepSkip.val * P.timeStep.val / unit) ∧ (Z ω).diff.n[τ - 1]? = some (n ω) ∧ (Z ω).diff.v[τ - 1]? = some (some (v ω))) ∧
      MemLp n 2 μ ∧ Integrable v μ ∧
      2 / 3 * sideBySideVar Finset.univ σ 1 F τ ≤ Var[n; μ] ∧ Var[n; μ] ≤ sideBySideVar Finset.univ σ 1 F τ ∧
      (1 - 2 / (τ * ((F - τ + 1 : ℕ) : ℝ)) - τ / F) * Var[n; μ] ≤ ∫ ω, v ω ∂μ ∧
      ∫ ω, v ω ∂μ ≤ 3 / 2 * (((F - τ + 1 : ℕ) : ℝ) / (((F - τ + 1 : ℕ) : ℝ) - 1) * (1 + 1 / (2 * ((F - τ + 1 : ℕ) : ℝ)))) * Var[n; μ] := by
  have all : ∀ ω, _ := fun ω => run_entry_mscd (fw := fw) hS hne hP hn (hstep ω) hq hsq hblock hsub (hbase ω) (hZ ω) h1 (by omega)
  choose a ha all using all
  exact ⟨_, _, fun ω => all ω, total_bars h hs hΞ Finset.univ h1 (by omega) a ha _ _ rfl rfl⟩

/-- **C159, the longest interval (MSTD).** With two or more atoms the intervals go up to half of the frames.  For that interval, of at least 12 frames, the reported variance of the MSTD is on average at
most 3/5 of the true one, whatever the number of atoms. -/
theorem C159_mstd_longest (μ : Measure Ω) [IsProbabilityMeasure μ] (E : Num ℝ) (P : Params ℝ) (S : Select ℝ) (sy : List String)
    (atoms fw : List ℕ) (hS : Picks S sy atoms fw) (hN : 2 ≤ atoms.length) (hP : DefaultGrid E P) (τ : ℕ) (h12 : 12 ≤ τ)
    (hn : ((2 * τ : ℕ) : ℤ) ≤ P.nSteps) (L : M3 ℝ) (V : ℝ) (u : Ω → ℕ → ℕ → V3 ℝ) (m : Ω → ℕ → ℕ → Fin 3 → ℤ)
    (hstep : ∀ ω, ∀ i < sy.length, ∀ j, j + 1 < 2 * τ → HalfCell fun k => u ω i (j + 1) k - u ω i j k)
    (Ξ : ℕ × Fin 3 → Ω → ℝ) (h : RandomWalk μ Ξ) (σ : ℝ) (hσ : 0 < σ) (hs : NormalMoments μ Ξ σ)
    (hΞ : ∀ j l ω, totalMove L (u ω) fw atoms (fun _ => 1) j (j + 1) l = Ξ (j, l) ω)
    (sq : ℝ → ℝ) (hsq : IsSqrt sq) (o : Oracle ℝ G) (U : UncParams ℝ) (hblock : U.opt.block = false) (hsub : U.sub = 1) (hax : (axesOf U.dimension).Nonempty)
    (base : Ω → PyM (Base ℝ)) (unit : ℝ) (hbase : ∀ ω, ReadFrom E P S (2 * τ) sy L V (u ω) (m ω) (base ω) unit) (g g' : Ω → G)
    (Z : Ω → Analyzer ℝ) (hZ : ∀ ω, jumpAnalyzer sq o (g ω) U (base ω) = .ok (Z ω, g' ω)) :
    ∃ n v : Ω → ℝ, (∀ ω, (Z ω).diff.n[τ - 1]? = some (n ω) ∧ (Z ω).diff.v[τ - 1]? = some (some (v ω))) ∧
      MemLp n 2 μ ∧ Integrable v μ ∧ ∫ ω, v ω ∂μ ≤ 3 / 5 * Var[n; μ] ∧ 0 < Var[n; μ] := by
  have all : ∀ ω, _ := fun ω => run_entry_mstd (fw := fw) hS (List.ne_nil_of_length_pos (by omega)) hP hn (hstep ω) hsq hblock hsub (hbase ω) (hZ ω) (show 1 ≤ τ by omega) (Or.inr ⟨hN, le_rfl⟩)
  choose a ha all using all
  exact ⟨_, _, fun ω => (all ω).2, total_longest h hσ hs hΞ (axesOf U.dimension) hax h12 a ha _ _ rfl rfl⟩

/-- **C159, the longest interval (MSCD).** -/
theorem C159_mscd_longest (μ : Measure Ω) [IsProbabilityMeasure μ] (E : Num ℝ) (P : Params ℝ) (S : Select ℝ) (sy : List String)
    (atoms fw : List ℕ) (hS : Picks S sy atoms fw) (hN : 2 ≤ atoms.length) (hP : DefaultGrid E P) (τ : ℕ) (h12 : 12 ≤ τ)
    (hn : ((2 * τ : ℕ) : ℤ) ≤ P.nSteps) (L : M3 ℝ) (V : ℝ) (u : Ω → ℕ → ℕ → V3 ℝ) (m : Ω → ℕ → ℕ → Fin 3 → ℤ)
    (hstep : ∀ ω, ∀ i < sy.length, ∀ j, j + 1 < 2 * τ → HalfCell fun k => u ω i (j + 1) k - u ω i j k)
    (charge : Charge ℝ) (hq : ∀ l, charge = .array l → l.length = atoms.length)
    (Ξ : ℕ × Fin 3 → Ω → ℝ) (h : RandomWalk μ Ξ) (σ : ℝ) (hσ : 0 < σ) (hs : NormalMoments μ Ξ σ)
    (hΞ : ∀ j l ω, totalMove L (u ω) fw atoms charge.of j (j + 1) l = Ξ (j, l) ω)
    (sq : ℝ → ℝ) (hsq : IsSqrt sq) (o : Oracle ℝ G) (U : UncParams ℝ) (hblock : U.opt.block = false) (hsub : U.sub = 1)
    (base : Ω → PyM (Base ℝ)) (unit : ℝ) (hbase : ∀ ω, ReadFrom E P S (2 * τ) sy L V (u ω) (m ω) (base ω) unit) (g g' : Ω → G)
    (Z : Ω → Analyzer ℝ) (hZ : ∀ ω, conductivityAnalyzer sq o (g ω) U charge (base ω) = .ok (Z ω, g' ω)) :
    ∃ n v : Ω → ℝ, (∀ ω, (Z ω).diff.n[τ - 1]? = some (n ω) ∧ (Z ω).diff.v[τ - 1]? = some (some (v ω))) ∧
      MemLp n 2 μ ∧ Integrable v μ ∧ ∫ ω, v ω ∂μ ≤ 3 / 5 * Var[n; μ] ∧ 0 < Var[n; μ] := by
  have all : ∀ ω, _ := fun ω => run_entry_mscd (fw := fw) hS (List.ne_nil_of_length_pos (by omega)) hP hn (hstep ω) hq hsq hblock hsub (hbase ω) (hZ ω) (show 1 ≤ τ by omega) (Or.inr ⟨hN, le_rfl⟩)
  choose a ha all using all
  exact ⟨_, _, fun ω => (all ω).2, total_longest h hσ hs hΞ Finset.univ Finset.univ_nonempty h12 a ha _ _ rfl rfl⟩

/-- **C159, independent atoms.** Atoms that make independent normal steps of variance `σ²` meet the hypothesis on the total displacement, with the variance `σ² Σ qᵢ²`. -/
theorem C159_independent (μ : Measure Ω) [IsProbabilityMeasure μ] (atoms fw : List ℕ) (hnd : atoms.Nodup) (L : M3 ℝ) (u : Ω → ℕ → ℕ → V3 ℝ) (q : ℕ → ℝ)
    (ξ : ℕ × ℕ × Fin 3 → Ω → ℝ) (h : RandomWalk μ ξ) (σ : ℝ) (hs : NormalMoments μ ξ σ) (hξ : ∀ i ∈ atoms, ∀ j l ω, walkStep L u fw i j l ω = ξ (i, j, l) ω) :
    ∃ Ξ : ℕ × Fin 3 → Ω → ℝ, RandomWalk μ Ξ ∧ NormalMoments μ Ξ (Real.sqrt (∑ s : Fin atoms.length, q s ^ 2) * σ) ∧
      ∀ j l ω, totalMove L (u ω) fw atoms q j (j + 1) l = Ξ (j, l) ω := by
  classical
  let T : ℕ × Fin 3 → Finset (ℕ × ℕ × Fin 3) := fun p => Finset.univ.image fun s : Fin atoms.length => (atoms[s], p.1, p.2)
  let c : ℕ × ℕ × Fin 3 → ℝ := fun k => q (atoms.idxOf k.1)
  have sum : ∀ (p : ℕ × Fin 3) (f : ℝ → ℕ × ℕ × Fin 3 → ℝ), ∑ k ∈ T p, f (c k) k = ∑ s : Fin atoms.length, f (q s) (atoms[s], p.1, p.2) := by
    intro p f
    rw [Finset.sum_image]
    · refine Finset.sum_congr rfl fun s _ => ?_
      show f (q (atoms.idxOf atoms[(s : ℕ)])) _ = _
      rw [hnd.idxOf_getElem]
    · intro a _ b _ e
      have := (Prod.mk.inj e).1
      exact Fin.ext ((hnd.getElem_inj_iff).1 this)
  obtain ⟨w1, w2⟩ := weightedMove_walk h hs c (T := T) (by
      intro a b hab
      rw [Finset.disjoint_left]
      intro k ha hb
      obtain ⟨s, -, rfl⟩ := Finset.mem_image.1 ha
      obtain ⟨s', -, e⟩ := Finset.mem_image.1 hb
      obtain ⟨e1, e2⟩ := Prod.mk.inj (Prod.mk.inj e).2
      exact hab (Prod.ext e1.symm e2.symm)) (fun a => sum a fun x _ => x ^ 2) (Finset.sum_nonneg fun s _ => sq_nonneg _)
  refine ⟨_, w1, w2, fun j l ω => ?_⟩
  unfold weightedMove
  rw [sum (j, l) fun x k => x * ξ k ω]
  unfold totalMove
  exact Finset.sum_congr rfl fun s _ => congrArg (fun x => q s * x) (hξ _ (List.getElem_mem s.2) j l ω)

/-! ### Example: two independent atoms with steps of 1/4, 0 and -1/4 -/

theorem exTwoLeaping_runs (ω : ℕ × ℕ × Fin 3 → Fin 3) (F : ℕ) (hF : 2 ≤ F) :
    (∃ Z, jumpAnalyzer Real.sqrt (exOracle ℝ) () exUncR (fromAse exNumR (exParamsF F) exSelectR 1 none
      (.one (wrapped F ["Li", "Li", "O"] exCube 1 (exTwoLeaping ω) fun _ _ _ => 0))) = .ok (Z, ())) ∧
    ∃ Z, conductivityAnalyzer Real.sqrt (exOracle ℝ) () exUncR (.array [2, -1]) (fromAse exNumR (exParamsF F) exSelectR 1 none
      (.one (wrapped F ["Li", "Li", "O"] exCube 1 (exTwoLeaping ω) fun _ _ _ => 0))) = .ok (Z, ()) := by
  obtain ⟨-, ⟨Z, _, h, -⟩, h3⟩ := exTwoLeaping_all ω F hF
  obtain ⟨Y, _, hY, -⟩ := h3 (.array [2, -1]) (by rintro l ⟨⟩; rfl)
  exact ⟨⟨Z, h⟩, Y, hY⟩

theorem exTwoLeaping_total (q : ℕ → ℝ) : ∃ Ξ : ℕ × Fin 3 → (ℕ × ℕ × Fin 3 → Fin 3) → ℝ, RandomWalk exLeaps Ξ ∧ NormalMoments exLeaps Ξ (Real.sqrt (q 0 ^ 2 + q 1 ^ 2) * Real.sqrt (1 / 48)) ∧
    ∀ j l ω, totalMove exCube (exTwoLeaping ω) [2] [0, 1] q j (j + 1) l = Ξ (j, l) ω := by
  obtain ⟨Ξ, a, b, c⟩ := C159_independent exLeaps [0, 1] [2] (by simp) exCube exTwoLeaping q _ exLeaps_walk.1 _ exLeaps_walk.2 (fun i hi j l ω => exTwoLeaping_step i j l ω hi)
  refine ⟨Ξ, a, ?_, c⟩
  rw [show ∑ s : Fin [0, 1].length, q s ^ 2 = q 0 ^ 2 + q 1 ^ 2 from Fin.sum_univ_two fun s : Fin 2 => q s ^ 2] at b
  exact b

/-- Two independent atoms, 1000 frames, an interval of 2 frames: the reported variances of the MSTD and of the MSCD for the charges 2 and -1 are on average between 0.99 and 1.51 of the true ones.
For the longest interval of 24 frames they are at most 3/5 of the true ones. -/
example : ∃ J Y J' Y' : (ℕ × ℕ × Fin 3 → Fin 3) → Analyzer ℝ,
    (∀ ω, jumpAnalyzer Real.sqrt (exOracle ℝ) () exUncR (fromAse exNumR (exParamsF 1000) exSelectR 1 none
      (.one (wrapped 1000 ["Li", "Li", "O"] exCube 1 (exTwoLeaping ω) fun _ _ _ => 0))) = .ok (J ω, ())) ∧
    (∀ ω, conductivityAnalyzer Real.sqrt (exOracle ℝ) () exUncR (.array [2, -1]) (fromAse exNumR (exParamsF 1000) exSelectR 1 none
      (.one (wrapped 1000 ["Li", "Li", "O"] exCube 1 (exTwoLeaping ω) fun _ _ _ => 0))) = .ok (Y ω, ())) ∧
    (∀ ω, jumpAnalyzer Real.sqrt (exOracle ℝ) () exUncR (fromAse exNumR (exParamsF 24) exSelectR 1 none
      (.one (wrapped 24 ["Li", "Li", "O"] exCube 1 (exTwoLeaping ω) fun _ _ _ => 0))) = .ok (J' ω, ())) ∧
    (∀ ω, conductivityAnalyzer Real.sqrt (exOracle ℝ) () exUncR (.array [2, -1]) (fromAse exNumR (exParamsF 24) exSelectR 1 none
      (.one (wrapped 24 ["Li", "Li", "O"] exCube 1 (exTwoLeaping ω) fun _ _ _ => 0))) = .ok (Y' ω, ())) ∧
    (∃ n v : (ℕ × ℕ × Fin 3 → Fin 3) → ℝ, (∀ ω, (J ω).diff.n[1]? = some (n ω) ∧ (J ω).diff.v[1]? = some (some (v ω))) ∧ 0 < Var[n; exLeaps] ∧
      99 / 100 * Var[n; exLeaps] ≤ ∫ ω, v ω ∂exLeaps ∧ ∫ ω, v ω ∂exLeaps ≤ 151 / 100 * Var[n; exLeaps]) ∧
    (∃ n v : (ℕ × ℕ × Fin 3 → Fin 3) → ℝ, (∀ ω, (Y ω).diff.n[1]? = some (n ω) ∧ (Y ω).diff.v[1]? = some (some (v ω))) ∧ 0 < Var[n; exLeaps] ∧
      99 / 100 * Var[n; exLeaps] ≤ ∫ ω, v ω ∂exLeaps ∧ ∫ ω, v ω ∂exLeaps ≤ 151 / 100 * Var[n; exLeaps]) ∧
    (∃ n v : (ℕ × ℕ × Fin 3 → Fin 3) → ℝ, (∀ ω, (J' ω).diff.n[11]? = some (n ω) ∧ (J' ω).diff.v[11]? = some (some (v ω))) ∧
      ∫ ω, v ω ∂exLeaps ≤ 3 / 5 * Var[n; exLeaps] ∧ 0 < Var[n; exLeaps]) ∧
    ∃ n v : (ℕ × ℕ × Fin 3 → Fin 3) → ℝ, (∀ ω, (Y' ω).diff.n[11]? = some (n ω) ∧ (Y' ω).diff.v[11]? = some (some (v ω))) ∧
      ∫ ω, v ω ∂exLeaps ≤ 3 / 5 * Var[n; exLeaps] ∧ 0 < Var[n; exLeaps] := by
  choose J hJ using fun ω => (exTwoLeaping_runs ω 1000 (by omega)).1
  choose Y hY using fun ω => (exTwoLeaping_runs ω 1000 (by omega)).2
  choose J' hJ' using fun ω => (exTwoLeaping_runs ω 24 (by omega)).1
  choose Y' hY' using fun ω => (exTwoLeaping_runs ω 24 (by omega)).2
  have hax : (axesOf exUncR.dimension).card = 3 := by decide +kernel
  have hg : ∀ F, DefaultGrid exNumR (exParamsF F) := by
    intro F
    refine ⟨rfl, ?_, rfl, rfl, rfl, rfl⟩
    simp [exParamsF, PyNum.val]
  have hS : Picks (exSelectR) ["Li", "Li", "O"] [0, 1] [2] := .species ["Li"] rfl rfl
  have hq : ∀ l : List ℝ, Charge.array [2, -1] = .array l → l.length = [0, 1].length := by rintro l ⟨⟩; rfl
  have hsq : IsSqrt Real.sqrt := fun x hx => ⟨Real.sqrt_nonneg x, Real.sq_sqrt hx⟩
  obtain ⟨Ξ, x1, x2, x3⟩ := exTwoLeaping_total fun _ => 1
  obtain ⟨Θ, y1, y2, y3⟩ := exTwoLeaping_total (Charge.array [2, -1] : Charge ℝ).of
  have q0 : (Charge.array [2, -1] : Charge ℝ).of 0 = 2 := rfl
  have q1 : (Charge.array [2, -1] : Charge ℝ).of 1 = -1 := rfl
  rw [q0, q1] at y2
  have px : 0 < Real.sqrt ((1 : ℝ) ^ 2 + 1 ^ 2) * Real.sqrt (1 / 48) := by positivity
  have py : 0 < Real.sqrt ((2 : ℝ) ^ 2 + (-1) ^ 2) * Real.sqrt (1 / 48) := by positivity
  obtain ⟨n, v, c1, -, -, c2, -, c3, c4⟩ := C159_mstd exLeaps exNumR (exParamsF 1000) exSelectR ["Li", "Li", "O"] [0, 1] [2] hS (by simp) (hg _) 1000
      (le_refl _) exCube 1 exTwoLeaping (fun _ _ _ _ => 0) (fun ω i _ j _ => exTwoLeaping_half ω i j) Ξ x1 _ x2 x3 Real.sqrt hsq (exOracle ℝ) exUncR rfl rfl _ 1 (fun ω => Or.inl ⟨rfl, rfl⟩)
      (fun _ => ()) (fun _ => ()) J (fun ω => hJ ω) 2 (by norm_num) (Or.inl (by norm_num))
  obtain ⟨n', v', d1, -, -, d2, -, d3, d4⟩ := C159_mscd exLeaps exNumR (exParamsF 1000) exSelectR ["Li", "Li", "O"] [0, 1] [2] hS (by simp) (hg _) 1000
      (le_refl _) exCube 1 exTwoLeaping (fun _ _ _ _ => 0) (fun ω i _ j _ => exTwoLeaping_half ω i j) (.array [2, -1]) hq Θ y1 _ y2 y3 Real.sqrt hsq (exOracle ℝ) exUncR rfl rfl _ 1
      (fun ω => Or.inl ⟨rfl, rfl⟩) (fun _ => ()) (fun _ => ()) Y (fun ω => hY ω) 2 (by norm_num) (Or.inl (by norm_num))
  obtain ⟨n2, v2, e1, -, -, e2, e3⟩ := C159_mstd_longest exLeaps exNumR (exParamsF 24) exSelectR ["Li", "Li", "O"] [0, 1] [2] hS (by simp) (hg _) 12 le_rfl
      (le_refl _) exCube 1 exTwoLeaping (fun _ _ _ _ => 0) (fun ω i _ j _ => exTwoLeaping_half ω i j) Ξ x1 _ px x2 x3 Real.sqrt hsq (exOracle ℝ) exUncR rfl rfl
      (Finset.card_pos.1 (by rw [hax]; norm_num)) _ 1 (fun ω => Or.inl ⟨rfl, rfl⟩) (fun _ => ()) (fun _ => ()) J' (fun ω => hJ' ω)
  obtain ⟨n3, v3, f1, -, -, f2, f3⟩ := C159_mscd_longest exLeaps exNumR (exParamsF 24) exSelectR ["Li", "Li", "O"] [0, 1] [2] hS (by simp) (hg _) 12 le_rfl
      (le_refl _) exCube 1 exTwoLeaping (fun _ _ _ _ => 0) (fun ω i _ j _ => exTwoLeaping_half ω i j) (.array [2, -1]) hq Θ y1 _ py y2 y3 Real.sqrt hsq (exOracle ℝ) exUncR rfl rfl
      _ 1 (fun ω => Or.inl ⟨rfl, rfl⟩) (fun _ => ()) (fun _ => ()) Y' (fun ω => hY' ω)
  refine ⟨J, Y, J', Y', hJ, hY, hJ', hY', ⟨n, v, fun ω => (c1 ω).2, ?_, ?_, ?_⟩, ⟨n', v', fun ω => (d1 ω).2, ?_, ?_, ?_⟩, ⟨n2, v2, e1, e2, e3⟩, n3, v3, f1, f2, f3⟩
  · refine lt_of_lt_of_le ?_ c2
    unfold sideBySideVar
    rw [hax]
    positivity
  · have hv : 0 ≤ Var[n; exLeaps] := variance_nonneg _ _
    norm_num at c3
    nlinarith
  · have hv : 0 ≤ Var[n; exLeaps] := variance_nonneg _ _
    norm_num at c4
    nlinarith
  · refine lt_of_lt_of_le ?_ d2
    unfold sideBySideVar
    rw [Finset.card_univ, Fintype.card_fin]
    positivity
  · have hv : 0 ≤ Var[n'; exLeaps] := variance_nonneg _ _
    norm_num at d3
    nlinarith
  · have hv : 0 ≤ Var[n'; exLeaps] := variance_nonneg _ _
    norm_num at d4
    nlinarith

end Kinisi
