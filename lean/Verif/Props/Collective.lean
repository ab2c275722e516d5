import Verif.Props.Limits

/-!
# C138: what a collective curve can show: neutral ions, matched motion, bound charges
-/

set_option linter.unusedSectionVars false
set_option linter.unusedVariables false

namespace Kinisi
open Spec
variable {K : Type} [Field K] [LinearOrder K] [IsStrictOrderedRing K] [FloorRing K] {G : Type}

/-- With weights that add up to zero the motion of the framework drops out. -/
theorem totalMove_neutral {L : M3 K} {u : ℕ → ℕ → V3 K} {fw atoms : List ℕ} {q : ℕ → K} (hq : ∑ j : Fin atoms.length, q j = 0) (s t : ℕ) :
    totalMove L u fw atoms q s t = fun l => ∑ j : Fin atoms.length, q j * (cart L (u atoms[j] t) l - cart L (u atoms[j] s) l) := by
  funext l
  simp only [totalMove, trueMove, mul_sub, Finset.sum_sub_distrib, ← Finset.sum_mul, hq, zero_mul, sub_zero]

theorem reportedTotal_bound {A : Finset (Fin 3)} {L : M3 K} {u : ℕ → ℕ → V3 K} {fw atoms : List ℕ} {q : ℕ → K} {F τ : ℕ} {B : K} (h1 : 1 ≤ τ) (h2 : τ ≤ F)
    (h : ∀ a < F, ∀ b < F, lengthSq A (totalMove L u fw atoms q a b) ≤ B) : reportedTotal A L u fw atoms q F τ ≤ B := by
  unfold reportedTotal
  have e1 := h 0 (by omega) (τ - 1) (by omega)
  have e2 : ∑ s ∈ Finset.range (F - τ), lengthSq A (totalMove L u fw atoms q s (s + τ)) ≤ ∑ _s ∈ Finset.range (F - τ), B := by
    apply Finset.sum_le_sum
    intro s hs
    rw [Finset.mem_range] at hs
    exact h s (by omega) _ (by omega)
  rw [Finset.sum_const, Finset.card_range, nsmul_eq_mul] at e2
  rw [div_le_iff₀ (by positivity)]
  push_cast
  linarith

theorem reportedTotal_nonneg (A : Finset (Fin 3)) (L : M3 K) (u : ℕ → ℕ → V3 K) (fw atoms : List ℕ) (q : ℕ → K) (F τ : ℕ) : 0 ≤ reportedTotal A L u fw atoms q F τ := by
  unfold reportedTotal lengthSq
  positivity

/-- The total displacement of two windows that follow each other is the sum. -/
theorem totalMove_add (L : M3 K) (u : ℕ → ℕ → V3 K) (fw atoms : List ℕ) (q : ℕ → K) (a b c : ℕ) (l : Fin 3) :
    totalMove L u fw atoms q a c l = totalMove L u fw atoms q a b l + totalMove L u fw atoms q b c l := by
  unfold totalMove
  rw [← Finset.sum_add_distrib]
  refine Finset.sum_congr rfl fun j _ => ?_
  rw [← mul_add]
  congr 1
  unfold trueMove
  have : (meanOver fw fun a_1 => cart L (u a_1 c) l - cart L (u a_1 a) l) =
      (meanOver fw fun a_1 => cart L (u a_1 b) l - cart L (u a_1 a) l) + meanOver fw fun a_1 => cart L (u a_1 c) l - cart L (u a_1 b) l := by
    unfold meanOver
    rw [← add_div, ← List.sum_map_add]
    congr 2
    refine List.map_congr_left fun k _ => ?_
    ring
  rw [this]
  ring

theorem lengthSq_eq_zero {A : Finset (Fin 3)} {v : V3 K} : lengthSq A v = 0 ↔ ∀ l ∈ A, v l = 0 := by
  unfold lengthSq
  rw [Finset.sum_eq_zero_iff_of_nonneg fun _ _ => sq_nonneg _]
  simp only [sq_eq_zero_iff]

/-- No value for one frame means no motion of the total at all. -/
theorem reportedTotal_one {A : Finset (Fin 3)} {L : M3 K} {u : ℕ → ℕ → V3 K} {fw atoms : List ℕ} {q : ℕ → K} {F : ℕ} :
    reportedTotal A L u fw atoms q F 1 = 0 ↔ ∀ a < F, ∀ b < F, ∀ l ∈ A, totalMove L u fw atoms q a b l = 0 := by
  have self : ∀ a l, totalMove L u fw atoms q a a l = 0 := fun a l => by
    have := totalMove_add L u fw atoms q a a a l
    linarith
  constructor
  · intro h
    unfold reportedTotal at h
    rw [div_eq_zero_iff] at h
    have hp : ((F - 1 + 1 : ℕ) : K) ≠ 0 := by positivity
    replace h := h.resolve_right hp
    have n1 : 0 ≤ lengthSq A (totalMove L u fw atoms q 0 (1 - 1)) := by unfold lengthSq; positivity
    have n2 : ∀ s ∈ Finset.range (F - 1), 0 ≤ lengthSq A (totalMove L u fw atoms q s (s + 1)) := fun s _ => by unfold lengthSq; positivity
    have h3 : ∑ s ∈ Finset.range (F - 1), lengthSq A (totalMove L u fw atoms q s (s + 1)) = 0 := by
      have := Finset.sum_nonneg n2
      linarith
    rw [Finset.sum_eq_zero_iff_of_nonneg n2] at h3
    have from0 : ∀ b < F, ∀ l ∈ A, totalMove L u fw atoms q 0 b l = 0 := by
      intro b
      induction b with
      | zero => exact fun _ l _ => self 0 l
      | succ b ih =>
        intro hb l hl
        rw [totalMove_add L u fw atoms q 0 b (b + 1), ih (by omega) l hl, lengthSq_eq_zero.1 (h3 b (Finset.mem_range.2 (by omega))) l hl, add_zero]
    intro a ha b hb l hl
    have := totalMove_add L u fw atoms q 0 a b l
    rw [from0 a ha l hl, from0 b hb l hl, zero_add] at this
    exact this.symm
  · intro h
    unfold reportedTotal
    rw [lengthSq_eq_zero.2 fun l hl => self 0 l, Finset.sum_eq_zero fun s hs => lengthSq_eq_zero.2 fun l hl => h s (by simp at hs; omega) (s + 1) (by simp at hs; omega) l hl]
    simp

/-- A curve of the total displacement, or of the charge displacement: which weights and which axes. -/
inductive Collective (U : UncParams K) (n : ℕ) (sq : K → K) (o : Oracle K G) (g g' : G) (base : PyM (Base K)) (Z : Analyzer K) : (ℕ → K) → Finset (Fin 3) → Prop
  | total (h : jumpAnalyzer sq o g U base = .ok (Z, g')) : Collective U n sq o g g' base Z (fun _ => 1) (axesOf U.dimension)
  | charge (c : Charge K) (hc : ∀ l, c = .array l → l.length = n) (h : conductivityAnalyzer sq o g U c base = .ok (Z, g')) : Collective U n sq o g g' base Z c.of Finset.univ

theorem collective_curve {E : Num K} {P : Params K} {S : Select K} {sy : List String} {atoms fw : List ℕ} (hS : Picks S sy atoms fw) (hP : DefaultGrid E P) {F : ℕ} (hF : 2 ≤ F) {C : ℕ → M3 K}
    {V : ℕ → K} {s x : ℕ → ℕ → V3 K} (hs : StoredIn F sy.length C s x) {sq : K → K} {o : Oracle K G} {U : UncParams K} (hblock : U.opt.block = false) (hsub : U.sub = 1) {g g' : G} {Z : Analyzer K}
    {base : PyM (Base K)} {unit : K} (hbase : ReadFrames E P S (cellFrames F sy C V s) (cellUniverse F sy C V s) base unit) {q : ℕ → K} {A : Finset (Fin 3)}
    (h : Collective U atoms.length sq o g g' base Z q A) :
    ∃ taus half : List ℕ, (∀ τ ∈ taus, 1 ≤ τ ∧ τ ≤ F) ∧ ((F : ℤ) ≤ P.nSteps → taus = (List.range F).map fun i => i + 1) ∧
      half = (resolved atoms.length F taus).take ((resolved atoms.length F taus).length / 2) ∧
      Z.diff.n = half.map (reportedTotal A unitCell x fw atoms q F) ∧ Z.diff.dt = half.map fun τ : ℕ => (τ : K) * P.stepSkip.val * P.timeStep.val / unit := by
  cases h with
  | total h =>
    obtain ⟨taus, half, -, h2, h3, -, h4, hn, hd⟩ := C101_mstd E P S sy atoms fw hS hP F hF C V s x hs sq o U hblock hsub g g' Z base unit hbase h
    exact ⟨taus, half, h2, h3, h4, hn, hd⟩
  | charge c hc h =>
    obtain ⟨taus, half, -, h2, h3, -, h4, hn, hd⟩ := C101_mscd E P S sy atoms fw hS hP F hF C V s x hs sq o U hblock hsub g g' Z base unit hbase c hc h
    exact ⟨taus, half, h2, h3, h4, hn, hd⟩

/-- **C138, neutral ions.** If the charges of the ions add up to zero, the MSCD is that of their own true paths, whatever atoms are the framework, and whether or not the framework moves: no drift
correction is needed, and none can do harm. -/
theorem C138_neutral (E : Num K) (P : Params K) (S : Select K) (sy : List String) (atoms fw : List ℕ) (hS : Picks S sy atoms fw) (hP : DefaultGrid E P) (F : ℕ) (hF : 2 ≤ F) (C : ℕ → M3 K)
    (V : ℕ → K) (s x : ℕ → ℕ → V3 K) (hs : StoredIn F sy.length C s x) (sq : K → K) (o : Oracle K G) (U : UncParams K) (hblock : U.opt.block = false) (hsub : U.sub = 1) (g g' : G) (Z : Analyzer K)
    (base : PyM (Base K)) (unit : K) (hbase : ReadFrames E P S (cellFrames F sy C V s) (cellUniverse F sy C V s) base unit) (charge : List K) (hl : charge.length = atoms.length) (hq : charge.sum = 0)
    (h : conductivityAnalyzer sq o g U (.array charge) base = .ok (Z, g')) :
    ∃ taus half : List ℕ, (∀ τ ∈ taus, 1 ≤ τ ∧ τ ≤ F) ∧ ((F : ℤ) ≤ P.nSteps → taus = (List.range F).map fun i => i + 1) ∧
      half = (resolved atoms.length F taus).take ((resolved atoms.length F taus).length / 2) ∧
      Z.diff.n = (half.map fun τ =>
        let move := fun a b : ℕ => fun l : Fin 3 => ∑ j : Fin atoms.length, charge.getD j 0 * (x atoms[j] b l - x atoms[j] a l)
        (lengthSq Finset.univ (move 0 (τ - 1)) + ∑ k ∈ Finset.range (F - τ), lengthSq Finset.univ (move k (k + τ))) / ((F - τ + 1 : ℕ) : K)) ∧
      Z.diff.dt = half.map fun τ : ℕ => (τ : K) * P.stepSkip.val * P.timeStep.val / unit := by
  obtain ⟨taus, half, -, h2, h3, -, h4, hn, hd⟩ := C101_mscd E P S sy atoms fw hS hP F hF C V s x hs sq o U hblock hsub g g' Z base unit hbase (.array charge) (fun l h => by cases h; exact hl) h
  refine ⟨taus, half, h2, h3, h4, ?_, hd⟩
  rw [hn]
  have hz : ∑ j : Fin atoms.length, (Charge.array charge).of j = 0 := by
    rw [← hq]
    show ∑ j : Fin atoms.length, charge.getD j 0 = charge.sum
    rw [← hl, ← Fin.sum_univ_getElem]
    exact Finset.sum_congr rfl fun j _ => by rw [List.getD_eq_getElem?_getD, List.getElem?_eq_getElem j.2]; rfl
  refine List.map_congr_left fun τ _ => ?_
  unfold reportedTotal
  simp only [totalMove_neutral hz, cart_unit]
  rfl

/-- **C138, matched motion.** With an interval for every number of frames, the first value of a collective curve is zero exactly when the weighted sum of the positions relative to the framework never
changes, and then all values are zero.  So ions that move in neutral pairs conduct nothing, however fast they diffuse; and a curve that starts at zero stays there. -/
theorem C138_matched (E : Num K) (P : Params K) (S : Select K) (sy : List String) (atoms fw : List ℕ) (hS : Picks S sy atoms fw) (hP : DefaultGrid E P) (F : ℕ) (hF : 2 ≤ F)
    (hfull : (F : ℤ) ≤ P.nSteps) (C : ℕ → M3 K)
    (V : ℕ → K) (s x : ℕ → ℕ → V3 K) (hs : StoredIn F sy.length C s x) (sq : K → K) (o : Oracle K G) (U : UncParams K) (hblock : U.opt.block = false) (hsub : U.sub = 1) (g g' : G) (Z : Analyzer K)
    (base : PyM (Base K)) (unit : K) (hbase : ReadFrames E P S (cellFrames F sy C V s) (cellUniverse F sy C V s) base unit) (q : ℕ → K) (A : Finset (Fin 3))
    (h : Collective U atoms.length sq o g g' base Z q A) (y : K) (ys : List K) (hy : Z.diff.n = y :: ys) :
    (y = 0 ↔ ∀ a < F, ∀ b < F, ∀ l ∈ A, ∑ j : Fin atoms.length, q j * trueMove unitCell x fw atoms[j] a b l = 0) ∧ (y = 0 → ∀ z ∈ Z.diff.n, z = 0) := by
  obtain ⟨taus, half, h2, h3, h4, hn, hd⟩ := collective_curve hS hP hF hs hblock hsub hbase h
  have ht := h3 hfull
  obtain ⟨τ, rest, rfl⟩ : ∃ τ rest, half = τ :: rest := by
    cases half with
    | nil => rw [hn] at hy; cases hy
    | cons τ rest => exact ⟨τ, rest, rfl⟩
  have hτ : τ = 1 := by
    obtain ⟨F', rfl⟩ : ∃ F', F = F' + 1 := ⟨F - 1, by omega⟩
    rw [List.range_succ_eq_map, List.map_cons] at ht
    by_cases hc : 2 ≤ atoms.length * ((F' + 1) / 1)
    · rw [ht, resolved, List.filter_cons_of_pos (by simpa using hc)] at h4
      cases hl : (_ : ℕ) / 2 with
      | zero => rw [hl] at h4; simp at h4
      | succ n => rw [hl] at h4; simpa using (List.cons.inj h4).1
    · exfalso
      have h0 : atoms.length = 0 := by
        by_contra h0
        have : 1 ≤ atoms.length := by omega
        have := Nat.mul_le_mul this hF
        rw [Nat.div_one] at hc
        omega
      have : resolved atoms.length (F' + 1) taus = [] := by
        unfold resolved
        rw [h0]
        simp
      rw [this] at h4
      simp at h4
  subst hτ
  rw [hn, List.map_cons] at hy
  obtain ⟨rfl, rfl⟩ := List.cons.inj hy
  have key := reportedTotal_one (A := A) (L := unitCell) (u := x) (fw := fw) (atoms := atoms) (q := q) (F := F)
  refine ⟨key, fun h0 z hz => ?_⟩
  rw [hn] at hz
  obtain ⟨τ, hτ, rfl⟩ := List.mem_map.mp hz
  have hm : τ ∈ taus := by
    rw [h4] at hτ
    exact (List.mem_filter.mp (List.mem_of_mem_take hτ)).1
  obtain ⟨t1, t2⟩ := h2 τ hm
  refine le_antisymm (reportedTotal_bound t1 t2 fun a ha b hb => (lengthSq_eq_zero.2 fun l hl => key.1 h0 a ha b hb l hl).le) (reportedTotal_nonneg ..)

/-- **C138, bound charges.** If the weighted sum of the positions relative to the framework is never further than `√B` from where it was in another frame (ions that are bound to their places, an insulator
that is only polarised), no value of the curve exceeds `B`; and with all starting points and without an intercept the best gradient is at most `B` over the first fitted time. -/
theorem C138_bound (E : Num K) (P : Params K) (S : Select K) (sy : List String) (atoms fw : List ℕ) (hS : Picks S sy atoms fw) (hP : DefaultGrid E P) (F : ℕ) (hF : 2 ≤ F) (C : ℕ → M3 K)
    (V : ℕ → K) (s x : ℕ → ℕ → V3 K) (hs : StoredIn F sy.length C s x) (sq : K → K) (o : Oracle K G) (U : UncParams K) (hblock : U.opt.block = false) (hsub : U.sub = 1) (g g' : G) (Z : Analyzer K)
    (base : PyM (Base K)) (unit : K) (hbase : ReadFrames E P S (cellFrames F sy C V s) (cellUniverse F sy C V s) base unit) (q : ℕ → K) (A : Finset (Fin 3))
    (h : Collective U atoms.length sq o g g' base Z q A) (B : K)
    (hB : ∀ a < F, ∀ b < F, lengthSq A (fun l => ∑ j : Fin atoms.length, q j * trueMove unitCell x fw atoms[j] a b l) ≤ B) :
    (∀ y ∈ Z.diff.n, 0 ≤ y ∧ y ≤ B) ∧
    ∀ (r m : ℕ) (W : Matrix (Fin (m + 1)) (Fin (m + 1)) K) (ld D best t : K), (∀ N ∈ Z.diff.nO, 0 < N) → FitWeights Z.diff r W → m + 1 = Z.diff.n.length - r →
      (∀ i, r ≤ i → i < Z.diff.n.length → ∃ y, Z.diff.v[i]? = some (some y) ∧ 0 < y) → Z.diff.dt[r]? = some t → BestRay (fitLL Z.diff r ld W) D best → D * t ≤ B := by
  obtain ⟨taus, half, h2, -, h4, hn, hd⟩ := collective_curve hS hP hF hs hblock hsub hbase h
  have hle : ∀ y ∈ Z.diff.n, 0 ≤ y ∧ y ≤ B := by
    intro y hy
    rw [hn] at hy
    obtain ⟨τ, hτ, rfl⟩ := List.mem_map.mp hy
    rw [h4] at hτ
    obtain ⟨t1, t2⟩ := h2 τ (List.mem_filter.mp (List.mem_of_mem_take hτ)).1
    exact ⟨reportedTotal_nonneg .., reportedTotal_bound t1 t2 hB⟩
  refine ⟨hle, ?_⟩
  intro r m W ld D best t hN hW hm hv ht hD
  obtain ⟨hfl, hpos, hmn, hmx, hsp, hsm⟩ := hP
  have h' : ∃ c : Charge K, jumpAnalyzer sq o g U base = .ok (Z, g') ∨ conductivityAnalyzer sq o g U c base = .ok (Z, g') := by
    cases h with
    | total h => exact ⟨.scalar 1, .inl h⟩
    | charge c _ h => exact ⟨c, .inr h⟩
  obtain ⟨c, h'⟩ := h'
  obtain ⟨κ, hκ⟩ := cell_constant hS ⟨hfl, hpos, hmn, hmx, hsp, hsm⟩ hF hs hbase hsub (charge := c) (.inr h')
  have hlen : Z.diff.v.length = Z.diff.n.length ∧ Z.diff.dt.length = Z.diff.n.length := by
    rcases h' with h' | h'
    · obtain ⟨B₀, -, -, hmsd⟩ := jump_inv h'
      obtain ⟨b0, p, i1, -, i2, -⟩ := mstdBootstrap_inv hmsd
      exact ⟨by rw [i2.lv, i2.ln], by rw [i2.ldt, i2.ln]⟩
    · obtain ⟨B₀, -, -, hmsd⟩ := conductivity_inv h'
      obtain ⟨b0, p, i1, -, i2, -⟩ := mscdBootstrap_inv hmsd
      exact ⟨by rw [i2.lv, i2.ln], by rw [i2.ldt, i2.ln]⟩
  have hdt : ∀ t ∈ Z.diff.dt, 0 < t := by
    intro t' ht'
    rw [hd] at ht'
    obtain ⟨τ, hτ, rfl⟩ := List.mem_map.mp ht'
    rw [h4] at hτ
    have h0 : (0 : K) < τ := by exact_mod_cast (h2 τ (List.mem_filter.mp (List.mem_of_mem_take hτ)).1).1
    have hu : 0 < unit := by rcases hbase with ⟨-, rfl⟩ | ⟨-, rfl⟩ | ⟨-, rfl⟩ <;> norm_num
    rw [mul_assoc]
    positivity
  have := (fit_ray hW hm hlen.1 hlen.2 hv hN κ hκ hdt (fun y hy => (hle y hy).1) ld D).1 ⟨best, hD⟩
  have hr : r < Z.diff.n.length := by omega
  rw [List.getD_eq_getElem?_getD, List.getD_eq_getElem?_getD, ht, List.getElem?_eq_getElem hr] at this
  rw [this]
  show Z.diff.n[r] / t * t ≤ B
  rw [div_mul_cancel₀ _ (hdt t (List.mem_of_getElem? ht)).ne']
  exact (hle _ (List.getElem_mem hr)).2

/-! ## Examples -/

/-- The ions. -/
def exIons : Select ℚ := { exSelect with specie := some ["Na", "Cl"] }

theorem exIons_picks : Picks exIons ["Na", "O", "Cl"] [0, 2] [1] := .species ["Na", "Cl"] rfl rfl

/-- Paths of a sodium, an oxygen and a chlorine atom in four frames, along x, in a cube of edge 10. -/
def exIonPath (p : List (List ℚ)) (i j : ℕ) : V3 ℚ := fun k => if k = 0 then (p.getD i []).getD j 0 else 0

/-- The analysis of the charge displacement. -/
def exIonRun (p : List (List ℚ)) : PyM (Analyzer ℚ × Unit) :=
  conductivityAnalyzer id (exOracle ℚ) () exUnc (.array [1, -1]) (fromAse exNum exParams exIons 1 none
    (.one (cellFrames 4 ["Na", "O", "Cl"] (fun _ => boxOf fun _ => 10) (fun _ => 1000) fun i j k => exIonPath p i j k / 10)))

theorem exIon_stored {p : List (List ℚ)} (h : ∀ i < 3, ∀ j < 3, HalfCell fun k => exIonPath p i (j + 1) k / 10 - exIonPath p i j k / 10) :
    StoredIn 4 3 (fun _ => boxOf fun _ => 10) (fun i j k => exIonPath p i j k / 10) (exIonPath p) := by
  intro i hi j hj
  refine ⟨⟨_, h i hi j (by omega), fun l => ?_⟩, fun _ => 0, fun l => ?_⟩
  all_goals
    simp only [cart_boxOf]
    push_cast
    ring

/-- The framework moves; both ions move, not alike. -/
def exFree : List (List ℚ) := [[0, 2, 0, 1], [5, 5, 6, 6], [5, 5, 6, 5]]

/-- `C138_neutral`: the framework moves from the second to the third frame, which does not matter. -/
example : ∃ Z, exIonRun exFree = .ok (Z, ()) ∧ Z.diff.n = [17 / 4, 2] ∧ ∃ taus half : List ℕ, (∀ τ ∈ taus, 1 ≤ τ ∧ τ ≤ 4) ∧
    (((4 : ℕ) : ℤ) ≤ exParams.nSteps → taus = (List.range 4).map fun i => i + 1) ∧ half = (resolved 2 4 taus).take ((resolved 2 4 taus).length / 2) ∧
      Z.diff.n = (half.map fun τ =>
        let move := fun a b : ℕ => fun l : Fin 3 => ∑ j : Fin [0, 2].length, [1, -1].getD j 0 * (exIonPath exFree [0, 2][j] b l - exIonPath exFree [0, 2][j] a l)
        (lengthSq Finset.univ (move 0 (τ - 1)) + ∑ k ∈ Finset.range (4 - τ), lengthSq Finset.univ (move k (k + τ))) / ((4 - τ + 1 : ℕ) : ℚ)) ∧
      Z.diff.dt = half.map fun τ : ℕ => (τ : ℚ) * exParams.stepSkip.val * exParams.timeStep.val / 1 := by
  obtain ⟨⟨Z, g⟩, h⟩ := ok_of_isSome (x := exIonRun exFree) (by decide +kernel)
  have k1 : (exIonRun exFree).toOption.map (fun z => z.1.diff.n) = some [17 / 4, 2] := by decide +kernel
  rw [h] at k1
  exact ⟨Z, h, Option.some.inj k1, C138_neutral exNum exParams exIons ["Na", "O", "Cl"] [0, 2] [1] exIons_picks exGrid 4 (by decide) _ _ _ (exIonPath exFree)
    (exIon_stored (by unfold HalfCell; decide +kernel)) id (exOracle ℚ) exUnc rfl rfl () () Z _ 1 (.inl ⟨rfl, rfl⟩) [1, -1] rfl (by norm_num) h⟩

/-- A pair of ions that moves as a whole. -/
def exIonPair : List (List ℚ) := [[0, 2, 0, 1], [5, 5, 6, 6], [3, 5, 3, 4]]

/-- `C138_matched`: a pair of ions does not conduct; ions that do not move alike have a first value other than zero. -/
example : ∃ Z y ys, exIonRun exIonPair = .ok (Z, ()) ∧ Z.diff.n = y :: ys ∧ y = 0 ∧ ∀ z ∈ Z.diff.n, z = 0 := by
  obtain ⟨⟨Z, g⟩, h⟩ := ok_of_isSome (x := exIonRun exIonPair) (by decide +kernel)
  have k1 : (exIonRun exIonPair).toOption.map (fun z => z.1.diff.n.length) = some 2 := by decide +kernel
  rw [h] at k1
  have k1 := Option.some.inj k1
  obtain ⟨y, ys, hy⟩ : ∃ y ys, Z.diff.n = y :: ys := by
    cases hn : Z.diff.n with
    | nil => dsimp only at k1; rw [hn] at k1; cases k1
    | cons y ys => exact ⟨y, ys, rfl⟩
  obtain ⟨p1, p2⟩ := C138_matched exNum exParams exIons ["Na", "O", "Cl"] [0, 2] [1] exIons_picks exGrid 4 (by decide) (by decide +kernel) _ _ _ (exIonPath exIonPair)
    (exIon_stored (by unfold HalfCell; decide +kernel)) id (exOracle ℚ) exUnc rfl rfl () () Z _ 1 (.inl ⟨rfl, rfl⟩) _ _ (.charge (.array [1, -1]) (fun l h => by cases h; rfl) h) y ys hy
  have h0 := p1.2 (by decide +kernel)
  exact ⟨Z, y, ys, h, hy, h0, p2 h0⟩

/-- Ions that are bound to their places. -/
def exBound : List (List ℚ) := [[0, 1, 1, 1], [5, 5, 5, 5], [7, 7, 6, 6]]

/-- `C138_bound`: the charge displacement of `exBound` stays within 2, and the fit gives the gradient 1/12. -/
example : ∃ Z, exIonRun exBound = .ok (Z, ()) ∧ (∀ y ∈ Z.diff.n, 0 ≤ y ∧ y ≤ 4) ∧ Z.diff.dt[0]? = some 6 ∧
    (∃ best, BestRay (fitLL Z.diff 0 0 !![108 / 7, -12 / 7; -12 / 7, 6 / 7]) (1 / 12) best) ∧ (1 / 12 : ℚ) * 6 ≤ 4 := by
  obtain ⟨⟨Z, g⟩, h⟩ := ok_of_isSome (x := exIonRun exBound) (by decide +kernel)
  have k1 : (exIonRun exBound).toOption.map (fun z => (z.1.diff.n, z.1.diff.v)) = some ([1 / 2, 2], [some (1 / 12), some (3 / 2)]) := by decide +kernel
  have k2 : (exIonRun exBound).toOption.map (fun z => (z.1.diff.nO, z.1.diff.dt)) = some ([8, 4], [6, 12]) := by decide +kernel
  rw [h] at k1 k2
  have k1 := Option.some.inj k1
  have k2 := Option.some.inj k2
  simp only [Prod.mk.injEq] at k1 k2
  obtain ⟨n1, n2⟩ := k1
  obtain ⟨n3, n4⟩ := k2
  obtain ⟨p1, p2⟩ := C138_bound exNum exParams exIons ["Na", "O", "Cl"] [0, 2] [1] exIons_picks exGrid 4 (by decide) _ _ _ (exIonPath exBound)
    (exIon_stored (by unfold HalfCell; decide +kernel)) id (exOracle ℚ) exUnc rfl rfl () () Z _ 1 (.inl ⟨rfl, rfl⟩) _ _ (.charge (.array [1, -1]) (fun l h => by cases h; rfl) h) 4
    (by decide +kernel)
  have hW : FitWeights Z.diff 0 !![108 / 7, -12 / 7; -12 / 7, (6 / 7 : ℚ)] :=
    ⟨!![1 / 12, 1 / 6; 1 / 6, 3 / 2], by rw [n2, n3]; exact ok_of_toOption (by decide +kernel), by decide +kernel⟩
  have hv : ∀ i, 0 ≤ i → i < Z.diff.n.length → ∃ y, Z.diff.v[i]? = some (some y) ∧ 0 < y := by
    rw [n1, n2]
    intro i h1 h2
    simp only [List.length_cons, List.length_nil] at h2
    obtain rfl | rfl : i = 0 ∨ i = 1 := by omega
    · exact ⟨1 / 12, rfl, by norm_num⟩
    · exact ⟨3 / 2, rfl, by norm_num⟩
  have hray := (fit_ray (m := 1) hW (by rw [n1]; rfl) (by rw [n1, n2]; rfl) (by rw [n1, n4]; rfl) hv (by rw [n3]; decide +kernel) 48 (by
    rw [n3, n4]
    intro k t N ht hN
    match k with
    | 0 | 1 => simp at ht hN; subst ht hN; norm_num
    | k + 2 => simp at ht) (by rw [n4]; decide +kernel) (by rw [n1]; decide +kernel) 0 (1 / 12)).2 (by rw [n1, n4]; norm_num)
  obtain ⟨best, hb⟩ := hray
  exact ⟨Z, h, p1, by rw [n4]; rfl, ⟨best, hb⟩, p2 0 1 _ 0 _ best 6 (by rw [n3]; decide +kernel) hW (by rw [n1]; rfl) hv (by rw [n4]; rfl) hb⟩

end Kinisi
