import Verif.Props.AnyAtoms
import Verif.Props.Axes
import Verif.Props.Paths
import Verif.Lemmas.Symmetry

/-!
# C137: what the motion allows: speed limit, uniform motion, caged atoms
-/

set_option linter.unusedSectionVars false
set_option linter.unusedVariables false

namespace Kinisi
open Spec
variable {K : Type} [Field K] [LinearOrder K] [IsStrictOrderedRing K] [FloorRing K] {G : Type}

/-- The path that kinisi sees: the sum of the minimum images of the stored steps. -/
def seenPath (C : ℕ → M3 K) (s : ℕ → ℕ → V3 K) (i : ℕ) : ℕ → V3 K
  | 0 => fun _ => 0
  | j + 1 => fun l => seenPath C s i j l + unwrapStep (s i j) (s i (j + 1)) (C j) (C (j + 1)) (invFun (C (j + 1))) l

/-- Whatever the file holds, it is how this path would be stored. -/
theorem seenPath_stored {F n : ℕ} {C : ℕ → M3 K} (hC : ∀ j < F, NonSingular (C j)) (s : ℕ → ℕ → V3 K) : StoredIn F n C s (seenPath C s) := by
  intro i _ j hj
  have hL : det3 (C (j + 1)) ≠ 0 := by
    rw [det3_eq_det]
    exact hC _ hj
  obtain ⟨⟨m, hm⟩, h, hh, he⟩ := minImage_unwrapStep (s i j) (s i (j + 1)) (C j) (C (j + 1)) hL
  have e : ∀ l, seenPath C s i (j + 1) l - seenPath C s i j l = unwrapStep (s i j) (s i (j + 1)) (C j) (C (j + 1)) (invFun (C (j + 1))) l := fun l => add_sub_cancel_left _ _
  refine ⟨⟨h, hh, fun l => by rw [e, he]⟩, fun k => -m k, fun l => ?_⟩
  rw [e, hm]
  have : cart (C (j + 1)) (fun k => ((-m k : ℤ) : K)) l = -cart (C (j + 1)) (fun k => (m k : K)) l := by
    simp only [cart, Fin.sum_univ_three]
    push_cast
    ring
  rw [this]
  ring

/-- Steps of at most `R` take an atom at most `n R` far in `n` frames. -/
theorem path_speed {A : Finset (Fin 3)} {F n : ℕ} {C : ℕ → M3 K} {s x : ℕ → ℕ → V3 K} (hs : StoredIn F n C s x) {R : K}
    (hR : ∀ j < F, ∀ h, HalfCell h → lengthSq A (cart (C j) h) ≤ R ^ 2) {i : ℕ} (hi : i < n) {a k : ℕ} (hk : a + k < F) :
    lengthSq A (fun l => x i (a + k) l - x i a l) ≤ ((k : K) * R) ^ 2 := by
  have tel : ∀ l, x i (a + k) l - x i a l = ∑ j ∈ Finset.range k, (x i (a + j + 1) l - x i (a + j) l) := fun l => by
    exact (Finset.sum_range_sub (fun j => x i (a + j) l) k).symm
  have step : ∀ j ∈ Finset.range k, ∑ l ∈ A, (x i (a + j + 1) l - x i (a + j) l) ^ 2 ≤ R ^ 2 := by
    intro j hj
    rw [Finset.mem_range] at hj
    obtain ⟨h, hh, he⟩ := (hs i hi (a + j) (by omega)).1
    have := hR (a + j + 1) (by omega) h hh
    unfold lengthSq at this
    simpa only [he] using this
  unfold lengthSq
  calc ∑ l ∈ A, (x i (a + k) l - x i a l) ^ 2 ≤ ∑ l ∈ A, (k : K) * ∑ j ∈ Finset.range k, (x i (a + j + 1) l - x i (a + j) l) ^ 2 := by
        refine Finset.sum_le_sum fun l _ => ?_
        rw [tel]
        simpa using sq_sum_le_card_mul_sum_sq (s := Finset.range k) (f := fun j => x i (a + j + 1) l - x i (a + j) l)
    _ = (k : K) * ∑ j ∈ Finset.range k, ∑ l ∈ A, (x i (a + j + 1) l - x i (a + j) l) ^ 2 := by
        rw [← Finset.mul_sum, Finset.sum_comm]
    _ ≤ (k : K) * ∑ _j ∈ Finset.range k, R ^ 2 := mul_le_mul_of_nonneg_left (Finset.sum_le_sum step) (by positivity)
    _ = ((k : K) * R) ^ 2 := by
        rw [Finset.sum_const, Finset.card_range, nsmul_eq_mul]
        ring

/-- The mean of vectors is no longer than the longest. -/
theorem lengthSq_meanOver {A : Finset (Fin 3)} {fw : List ℕ} {m : ℕ → V3 K} {B : K} (hB : 0 ≤ B) (h : ∀ a ∈ fw, lengthSq A (m a) ≤ B) :
    lengthSq A (fun l => meanOver fw fun a => m a l) ≤ B := by
  rcases Nat.eq_zero_or_pos fw.length with h0 | h0
  · rw [List.length_eq_zero_iff] at h0
    subst h0
    simpa [lengthSq, meanOver] using hB
  have hs : ∀ l, (fw.map fun a => m a l).sum = ∑ i : Fin fw.length, m fw[i] l := fun l => by
    conv_lhs => rw [← List.ofFn_getElem (xs := fw)]
    rw [List.map_ofFn, List.sum_ofFn]
    rfl
  have hp : (0 : K) < (fw.length : K) := by exact_mod_cast h0
  unfold lengthSq meanOver
  calc ∑ l ∈ A, ((fw.map fun a => m a l).sum / (fw.length : K)) ^ 2 = (∑ l ∈ A, (∑ i : Fin fw.length, m fw[i] l) ^ 2) / (fw.length : K) ^ 2 := by
        rw [Finset.sum_div]
        refine Finset.sum_congr rfl fun l _ => ?_
        rw [hs, div_pow]
    _ ≤ (∑ l ∈ A, (fw.length : K) * ∑ i : Fin fw.length, m fw[i] l ^ 2) / (fw.length : K) ^ 2 := by
        refine div_le_div_of_nonneg_right (Finset.sum_le_sum fun l _ => ?_) (by positivity)
        simpa using sq_sum_le_card_mul_sum_sq (s := (Finset.univ : Finset (Fin fw.length))) (f := fun i => m fw[i] l)
    _ = (fw.length : K) * (∑ i : Fin fw.length, ∑ l ∈ A, m fw[i] l ^ 2) / (fw.length : K) ^ 2 := by
        rw [← Finset.mul_sum, Finset.sum_comm]
    _ ≤ (fw.length : K) * (∑ _i : Fin fw.length, B) / (fw.length : K) ^ 2 := by
        refine div_le_div_of_nonneg_right (mul_le_mul_of_nonneg_left (Finset.sum_le_sum fun i _ => h _ (List.getElem_mem _)) hp.le) (by positivity)
    _ = B := by
        rw [Finset.sum_const, Finset.card_univ, Fintype.card_fin, nsmul_eq_mul]
        field_simp

/-- The motion relative to the framework is at most twice as far. -/
theorem move_speed {A : Finset (Fin 3)} {x : ℕ → ℕ → V3 K} {fw : List ℕ} {i a b : ℕ} {B : K} (hB : 0 ≤ B)
    (h : ∀ k, k = i ∨ k ∈ fw → lengthSq A (fun l => x k b l - x k a l) ≤ B) :
    lengthSq A (trueMove unitCell x fw i a b) ≤ 4 * B ∧ (fw = [] → lengthSq A (trueMove unitCell x fw i a b) ≤ B) := by
  have e : trueMove unitCell x fw i a b = fun l => (x i b l - x i a l) - meanOver fw fun k => x k b l - x k a l := by
    funext l
    simp only [trueMove, cart_unit]
  rw [e]
  constructor
  · have h1 := h i (.inl rfl)
    have h2 := lengthSq_meanOver (m := fun k l => x k b l - x k a l) hB fun k hk => h k (.inr hk)
    calc lengthSq A _ ≤ 2 * lengthSq A (fun l => x i b l - x i a l) + 2 * lengthSq A (fun l => meanOver fw fun k => x k b l - x k a l) := by
          unfold lengthSq
          rw [Finset.mul_sum, Finset.mul_sum, ← Finset.sum_add_distrib]
          refine Finset.sum_le_sum fun l _ => ?_
          nlinarith [sq_nonneg ((x i b l - x i a l) + meanOver fw fun k => x k b l - x k a l)]
      _ ≤ 4 * B := by linarith
  · rintro rfl
    have h1 := h i (.inl rfl)
    unfold lengthSq at h1 ⊢
    simpa [meanOver] using h1

/-- A bound for the windows is a bound for the average. -/
theorem reportedMsd_bound {A : Finset (Fin 3)} {L : M3 K} {u : ℕ → ℕ → V3 K} {fw atoms : List ℕ} {F τ : ℕ} {B : K} (hB : 0 ≤ B) (h1 : 1 ≤ τ) (h2 : τ ≤ F)
    (h0 : ∀ i ∈ atoms, lengthSq A (trueMove L u fw i 0 (τ - 1)) ≤ B) (h : ∀ i ∈ atoms, ∀ s, s + τ < F → lengthSq A (trueMove L u fw i s (s + τ)) ≤ B) :
    reportedMsd A L u fw atoms F τ ≤ B := by
  unfold reportedMsd
  have hs : (atoms.map fun i => lengthSq A (trueMove L u fw i 0 (τ - 1)) +
      ∑ s ∈ Finset.range (F - τ), lengthSq A (trueMove L u fw i s (s + τ))).sum ≤ (atoms.length : K) * ((F - τ + 1 : ℕ) : K) * B := by
    have : ∀ x ∈ atoms.map (fun i => lengthSq A (trueMove L u fw i 0 (τ - 1)) +
        ∑ s ∈ Finset.range (F - τ), lengthSq A (trueMove L u fw i s (s + τ))), x ≤ ((F - τ + 1 : ℕ) : K) * B := by
      intro x hx
      obtain ⟨i, hi, rfl⟩ := List.mem_map.mp hx
      have e1 := h0 i hi
      have e2 : ∑ s ∈ Finset.range (F - τ), lengthSq A (trueMove L u fw i s (s + τ)) ≤ ∑ _s ∈ Finset.range (F - τ), B := by
        apply Finset.sum_le_sum
        intro s hs
        rw [Finset.mem_range] at hs
        exact h i hi s (by omega)
      rw [Finset.sum_const, Finset.card_range, nsmul_eq_mul] at e2
      push_cast
      linarith
    have := List.sum_le_card_nsmul _ _ this
    rw [List.length_map, nsmul_eq_mul] at this
    linarith
  rcases Nat.eq_zero_or_pos atoms.length with h0 | h0
  · rw [h0]; simp [hB]
  · rw [div_le_iff₀ (by positivity)]
    linarith

/-- **C137, speed limit.** Any stored coordinates at all, sensible or not, in cells that may change, in any of the three formats.  If no vector with fractional coordinates between -1/2 and 1/2 is longer
than `R` (along the chosen axes), the MSD reported for `τ` frames is at most `(2 τ R)²`, and without a framework at most `(τ R)²`: kinisi never reports atoms that move by more than half a cell per frame,
however far they truly moved between the stored frames. -/
theorem C137_speed_limit (E : Num K) (P : Params K) (S : Select K) (sy : List String) (atoms fw : List ℕ) (hS : Picks S sy atoms fw) (hP : DefaultGrid E P) (F : ℕ) (hF : 2 ≤ F) (C : ℕ → M3 K)
    (hC : ∀ j < F, NonSingular (C j)) (V : ℕ → K) (s : ℕ → ℕ → V3 K) (sq : K → K) (o : Oracle K G) (U : UncParams K) (hblock : U.opt.block = false) (hsub : U.sub = 1) (g g' : G) (Z : Analyzer K)
    (base : PyM (Base K)) (unit : K) (hbase : ReadFrames E P S (cellFrames F sy C V s) (cellUniverse F sy C V s) base unit) (h : diffusionAnalyzer sq o g U base = .ok (Z, g')) (R : K)
    (hR : ∀ j < F, ∀ f, HalfCell f → lengthSq (axesOf U.dimension) (cart (C j) f) ≤ R ^ 2) :
    ∃ taus : List ℕ, Z.diff.dt = taus.map (fun τ : ℕ => (τ : K) * P.stepSkip.val * P.timeStep.val / unit) ∧
      List.Forall₂ (fun (τ : ℕ) y => y ≤ (2 * τ * R) ^ 2 ∧ (fw = [] → y ≤ (τ * R) ^ 2)) taus Z.diff.n := by
  have hx := seenPath_stored (n := sy.length) hC s
  obtain ⟨taus, h1, h2, -, -, hn, hd⟩ := C101_msd E P S sy atoms fw hS hP F hF C V s _ hx sq o U hblock hsub g g' Z base unit hbase h
  refine ⟨_, hd, ?_⟩
  rw [hn, List.forall₂_map_right_iff, List.forall₂_same]
  intro τ hτ
  obtain ⟨t1, t2⟩ := h2 τ (List.mem_filter.mp hτ).1
  have hb : ∀ k < sy.length, ∀ a b, a ≤ b → b ≤ a + τ → b < F → lengthSq (axesOf U.dimension) (fun l => seenPath C s k b l - seenPath C s k a l) ≤ (τ * R) ^ 2 := by
    intro k hk a b hab hba hbF
    obtain ⟨n, rfl⟩ := Nat.exists_eq_add_of_le hab
    refine (path_speed hx hR hk hbF).trans ?_
    rw [mul_pow, mul_pow]
    refine mul_le_mul_of_nonneg_right ?_ (sq_nonneg _)
    have : (n : K) ≤ τ := by exact_mod_cast (by omega : n ≤ τ)
    exact pow_le_pow_left₀ (by positivity) this 2
  have hm : ∀ i ∈ atoms, ∀ a b, a ≤ b → b ≤ a + τ → b < F → _ := fun i hi a b h1 h2 h3 =>
    move_speed (fw := fw) (i := i) (a := a) (b := b) (sq_nonneg ((τ : K) * R)) fun k hk => hb k (by
      rcases hk with rfl | hk
      · exact (picks_mem hS).1 _ hi
      · exact (picks_mem hS).2 _ hk) a b h1 h2 h3
  constructor
  · have e : (2 * (τ : K) * R) ^ 2 = 4 * (τ * R) ^ 2 := by ring
    rw [e]
    exact reportedMsd_bound (by positivity) t1 t2 (fun i hi => (hm i hi 0 (τ - 1) (by omega) (by omega) (by omega)).1)
      fun i hi a ha => (hm i hi a (a + τ) (by omega) (by omega) ha).1
  · intro hf
    exact reportedMsd_bound (sq_nonneg _) t1 t2 (fun i hi => (hm i hi 0 (τ - 1) (by omega) (by omega) (by omega)).2 hf)
      fun i hi a ha => (hm i hi a (a + τ) (by omega) (by omega) ha).2 hf

/-- **C137, uniform motion.** Every atom moves with a constant velocity `v` (distance per frame).  The MSD for `τ` frames is the mean squared velocity relative to the framework times `τ²`, but for
the additional observation over `τ - 1` frames. -/
theorem C137_uniform (E : Num K) (P : Params K) (S : Select K) (sy : List String) (atoms fw : List ℕ) (hS : Picks S sy atoms fw) (hP : DefaultGrid E P) (F : ℕ) (hF : 2 ≤ F) (C : ℕ → M3 K)
    (V : ℕ → K) (s : ℕ → ℕ → V3 K) (x₀ v : ℕ → V3 K) (hs : StoredIn F sy.length C s fun i j l => x₀ i l + (j : K) * v i l) (sq : K → K) (o : Oracle K G) (U : UncParams K)
    (hblock : U.opt.block = false) (hsub : U.sub = 1) (g g' : G) (Z : Analyzer K) (base : PyM (Base K)) (unit : K)
    (hbase : ReadFrames E P S (cellFrames F sy C V s) (cellUniverse F sy C V s) base unit) (h : diffusionAnalyzer sq o g U base = .ok (Z, g')) :
    ∃ taus : List ℕ, (∀ τ ∈ taus, 1 ≤ τ ∧ τ ≤ F) ∧ Z.diff.dt = taus.map (fun τ : ℕ => (τ : K) * P.stepSkip.val * P.timeStep.val / unit) ∧
      Z.diff.n = taus.map fun τ => (atoms.map fun i => lengthSq (axesOf U.dimension) fun l => v i l - meanOver fw fun a => v a l).sum / (atoms.length : K) *
        ((((τ - 1 : ℕ) : K) ^ 2 + ((F - τ : ℕ) : K) * (τ : K) ^ 2) / ((F - τ + 1 : ℕ) : K)) := by
  obtain ⟨taus, h1, h2, -, -, hn, hd⟩ := C101_msd E P S sy atoms fw hS hP F hF C V s _ hs sq o U hblock hsub g g' Z base unit hbase h
  refine ⟨_, fun τ hτ => h2 τ (List.mem_filter.mp hτ).1, hd, ?_⟩
  rw [hn]
  refine List.map_congr_left fun τ hτ => ?_
  have mv : ∀ i a b, a ≤ b → lengthSq (axesOf U.dimension) (trueMove unitCell (fun i j l => x₀ i l + (j : K) * v i l) fw i a b) =
      ((b - a : ℕ) : K) ^ 2 * lengthSq (axesOf U.dimension) fun l => v i l - meanOver fw fun a => v a l := by
    intro i a b hab
    unfold lengthSq
    rw [Finset.mul_sum]
    refine Finset.sum_congr rfl fun l _ => ?_
    rw [← mul_pow]
    congr 1
    simp only [trueMove, cart_unit]
    have e : ∀ k : ℕ, x₀ k l + (b : K) * v k l - (x₀ k l + (a : K) * v k l) = ((b - a : ℕ) : K) * v k l := fun k => by
      rw [Nat.cast_sub hab]
      ring
    simp only [e, meanOver_smul]
    ring
  unfold reportedMsd
  have e : ∀ i, lengthSq (axesOf U.dimension) (trueMove unitCell (fun i j l => x₀ i l + (j : K) * v i l) fw i 0 (τ - 1)) +
      ∑ s ∈ Finset.range (F - τ), lengthSq (axesOf U.dimension) (trueMove unitCell (fun i j l => x₀ i l + (j : K) * v i l) fw i s (s + τ)) =
      ((((τ - 1 : ℕ) : K) ^ 2 + ((F - τ : ℕ) : K) * (τ : K) ^ 2)) * lengthSq (axesOf U.dimension) fun l => v i l - meanOver fw fun a => v a l := by
    intro i
    rw [mv i 0 (τ - 1) (by omega), Finset.sum_congr rfl fun s _ => mv i s (s + τ) (by omega)]
    simp only [Nat.sub_zero, Nat.add_sub_cancel_left, Finset.sum_const, Finset.card_range, nsmul_eq_mul]
    ring
  simp only [e]
  rw [List.sum_map_mul_left]
  have : ((F - τ + 1 : ℕ) : K) ≠ 0 := by positivity
  rcases eq_or_ne (atoms.length : K) 0 with h0 | h0
  · rw [h0]
    simp
  · field_simp

/-- **C137, caged atoms.** If no chosen atom is ever further than `√B` from where it was in another frame, relative to the framework, no reported value exceeds `B`, however long the trajectory; and with
all starting points and without an intercept the best gradient is at most `B` over the first fitted time.  The apparent diffusion coefficient of a solid falls as the inverse of `start_dt`. -/
theorem C137_cage (E : Num K) (P : Params K) (S : Select K) (sy : List String) (atoms fw : List ℕ) (hS : Picks S sy atoms fw) (hP : DefaultGrid E P) (F : ℕ) (hF : 2 ≤ F) (C : ℕ → M3 K)
    (V : ℕ → K) (s x : ℕ → ℕ → V3 K) (hs : StoredIn F sy.length C s x) (sq : K → K) (o : Oracle K G) (U : UncParams K)
    (hblock : U.opt.block = false) (hsub : U.sub = 1) (g g' : G) (Z : Analyzer K) (base : PyM (Base K)) (unit : K)
    (hbase : ReadFrames E P S (cellFrames F sy C V s) (cellUniverse F sy C V s) base unit) (h : diffusionAnalyzer sq o g U base = .ok (Z, g')) (B : K) (hB : 0 ≤ B)
    (hcage : ∀ i ∈ atoms, ∀ a < F, ∀ b < F, lengthSq (axesOf U.dimension) (trueMove unitCell x fw i a b) ≤ B) :
    (∀ y ∈ Z.diff.n, y ≤ B) ∧
    ∀ (r m : ℕ) (W : Matrix (Fin (m + 1)) (Fin (m + 1)) K) (ld D best t : K), (∀ N ∈ Z.diff.nO, 0 < N) → FitWeights Z.diff r W → m + 1 = Z.diff.n.length - r →
      (∀ i, r ≤ i → i < Z.diff.n.length → ∃ y, Z.diff.v[i]? = some (some y) ∧ 0 < y) → Z.diff.dt[r]? = some t → BestRay (fitLL Z.diff r ld W) D best → D * t ≤ B := by
  obtain ⟨taus, h1, h2, -, -, hn, hd⟩ := C101_msd E P S sy atoms fw hS hP F hF C V s x hs sq o U hblock hsub g g' Z base unit hbase h
  have hle : ∀ y ∈ Z.diff.n, y ≤ B := by
    intro y hy
    rw [hn] at hy
    obtain ⟨τ, hτ, rfl⟩ := List.mem_map.mp hy
    obtain ⟨t1, t2⟩ := h2 τ (List.mem_filter.mp hτ).1
    exact reportedMsd_le hB t1 t2 hcage
  refine ⟨hle, ?_⟩
  intro r m W ld D best t hN hW hm hv ht hD
  obtain ⟨hfl, hpos, hmn, hmx, hsp, hsm⟩ := hP
  obtain ⟨κ, hκ⟩ := cell_constant hS ⟨hfl, hpos, hmn, hmx, hsp, hsm⟩ hF hs hbase hsub (charge := .scalar 1) (.inl h)
  obtain ⟨B₀, -, -, hmsd⟩ := diffusion_inv h
  obtain ⟨b0, q, i1, -, i2, -, b1, -, i3⟩ := msdBootstrap_inv hmsd
  have hl : Z.diff.v.length = Z.diff.n.length := by rw [i2.lv, i2.ln]
  have hld : Z.diff.dt.length = Z.diff.n.length := by rw [i2.ldt, i2.ln]
  have hdt : ∀ t ∈ Z.diff.dt, 0 < t := by
    intro t' ht'
    rw [hd] at ht'
    obtain ⟨τ, hτ, rfl⟩ := List.mem_map.mp ht'
    have h0 : (0 : K) < τ := by exact_mod_cast (h2 τ (List.mem_filter.mp hτ).1).1
    have hu : 0 < unit := by rcases hbase with ⟨-, rfl⟩ | ⟨-, rfl⟩ | ⟨-, rfl⟩ <;> norm_num
    rw [mul_assoc]
    positivity
  have hy : ∀ y ∈ Z.diff.n, 0 ≤ y := C28_nonneg sq o U.opt hblock g g' _ _ _ _ _ _ hmsd
  have := (fit_ray hW hm hl hld hv hN κ hκ hdt hy ld D).1 ⟨best, hD⟩
  have hr : r < Z.diff.n.length := by omega
  rw [List.getD_eq_getElem?_getD, List.getD_eq_getElem?_getD, ht, List.getElem?_eq_getElem hr] at this
  rw [this]
  show Z.diff.n[r] / t * t ≤ B
  rw [div_mul_cancel₀ _ (hdt t (List.mem_of_getElem? ht)).ne']
  exact hle _ (List.getElem_mem hr)

/-! ## Examples -/

/-- Two lithium atoms and an oxygen atom in a cube of edge 10: path of each atom in four frames, along x. -/
def exCage (i j : ℕ) : V3 ℚ := fun k => if k = 0 then ([[0, 2, 0, 1], [], [5, 5, 6, 5]].getD i []).getD j 0 else 0

/-- As stored. -/
def exCageS (i j : ℕ) : V3 ℚ := fun k => exCage i j k / 10

/-- The analysis of frames stored like this. -/
def exCageRun (e : ℕ → ℚ) (s : ℕ → ℕ → V3 ℚ) : PyM (Analyzer ℚ × Unit) :=
  diffusionAnalyzer id (exOracle ℚ) () exUnc (fromAse exNum exParams exSelect 1 none (.one (cellFrames 4 ["Li", "O", "Li"] (fun j => boxOf fun _ => e j) (fun j => e j ^ 3) s)))

theorem exCage_stored : StoredIn 4 3 (fun _ => boxOf fun _ => 10) exCageS exCage := by
  intro i hi j hj
  refine ⟨⟨fun k => exCageS i (j + 1) k - exCageS i j k, ?_, fun l => ?_⟩, fun _ => 0, fun l => ?_⟩
  · have : ∀ i < 3, ∀ j < 3, HalfCell fun k => exCageS i (j + 1) k - exCageS i j k := by
      unfold HalfCell
      decide +kernel
    exact this i hi j (by omega)
  all_goals
    simp only [cart_boxOf, exCageS]
    push_cast
    ring

/-- `C137_speed_limit`: the atoms of `exPathS`, in a cell of edge 10 to 12. -/
example : ∃ Z, exCageRun exEdge exPathS = .ok (Z, ()) ∧ ∃ taus : List ℕ, Z.diff.dt = taus.map (fun τ : ℕ => (τ : ℚ) * exParams.stepSkip.val * exParams.timeStep.val / 1) ∧
    List.Forall₂ (fun (τ : ℕ) (y : ℚ) => y ≤ (2 * τ * 11) ^ 2 ∧ ([1] = [] → y ≤ (τ * 11) ^ 2)) taus Z.diff.n := by
  obtain ⟨⟨Z, g⟩, h⟩ := ok_of_isSome (x := exCageRun exEdge exPathS) (by decide +kernel)
  have hb : ∀ j < 4, 0 < exEdge j ∧ exEdge j ≤ 12 := by decide +kernel
  refine ⟨Z, h, C137_speed_limit exNum exParams exSelect ["Li", "O", "Li"] _ _ exPicks exGrid 4 (by decide) (fun j => boxOf fun _ => exEdge j) ?_ (fun j => exEdge j ^ 3) exPathS id (exOracle ℚ) exUnc
    rfl rfl () () Z _ 1 (.inl ⟨rfl, rfl⟩) h 11 ?_⟩
  · intro j hj
    have := (hb j hj).1.ne'
    show (Matrix.of (boxOf fun _ => exEdge j)).det ≠ 0
    rw [Matrix.det_fin_three]
    simp [boxOf, this]
  · intro j hj f hf
    have h0 := hb j hj
    have : ∀ l, cart (boxOf fun _ => exEdge j) f l ^ 2 ≤ 36 := by
      intro l
      rw [cart_boxOf, mul_pow]
      have h1 : f l ^ 2 ≤ 1 / 4 := by
        obtain ⟨a, b⟩ := hf l
        nlinarith
      have h2 : exEdge j ^ 2 ≤ 144 := by nlinarith
      nlinarith [sq_nonneg (f l), sq_nonneg (exEdge j)]
    unfold lengthSq
    calc _ ≤ ∑ _l ∈ axesOf exUnc.dimension, (36 : ℚ) := Finset.sum_le_sum fun l _ => this l
      _ ≤ 11 ^ 2 := by decide +kernel

/-- Without a framework the limit can be reached: the only atom moves by half the cell in each frame, and `R` is half the edge. -/
example : MinImage (boxOf fun _ => (10 : ℚ)) (fun l => if l = 0 then 5 else 0) (fun l => if l = 0 then -5 else 0) :=
  ⟨⟨fun k => if k = 0 then 1 else 0, by decide +kernel⟩, fun k => if k = 0 then -1 / 2 else 0, by unfold HalfCell; decide +kernel, by decide +kernel⟩

/-- The first atom moves by 1 per frame and leaves the cell, the last by -1/2. -/
def exDrift (i : ℕ) : V3 ℚ := fun k => if k = 0 then [9, 0, 5].getD i 0 else 0

/-- Its velocity. -/
def exVel (i : ℕ) : V3 ℚ := fun k => if k = 0 then [1, 0, -1 / 2].getD i 0 else 0

/-- As stored. -/
def exDriftS (i j : ℕ) : V3 ℚ := fun k => if k = 0 then ([[9 / 10, 0, 1 / 10, 2 / 10], [], [5 / 10, 45 / 100, 4 / 10, 35 / 100]].getD i []).getD j 0 else 0

/-- `C137_uniform`: the mean squared velocity is 5/8. -/
example : ∃ Z, exCageRun (fun _ => 10) exDriftS = .ok (Z, ()) ∧ ∃ taus : List ℕ, (∀ τ ∈ taus, 1 ≤ τ ∧ τ ≤ 4) ∧
    Z.diff.dt = taus.map (fun τ : ℕ => (τ : ℚ) * exParams.stepSkip.val * exParams.timeStep.val / 1) ∧
    Z.diff.n = taus.map fun τ => ([0, 2].map fun i => lengthSq (axesOf exUnc.dimension) fun l => exVel i l - meanOver [1] fun a => exVel a l).sum / 2 *
      ((((τ - 1 : ℕ) : ℚ) ^ 2 + ((4 - τ : ℕ) : ℚ) * (τ : ℚ) ^ 2) / ((4 - τ + 1 : ℕ) : ℚ)) := by
  obtain ⟨⟨Z, g⟩, h⟩ := ok_of_isSome (x := exCageRun (fun _ => 10) exDriftS) (by decide +kernel)
  refine ⟨Z, h, C137_uniform exNum exParams exSelect ["Li", "O", "Li"] _ _ exPicks exGrid 4 (by decide) (fun j => boxOf fun _ => 10) (fun j => 10 ^ 3) exDriftS exDrift exVel ?_ id (exOracle ℚ) exUnc
    rfl rfl () () Z _ 1 (.inl ⟨rfl, rfl⟩) h⟩
  intro i hi j hj
  have hd : ∀ i < 3, ∀ j < 3, HalfCell (fun k => exVel i k / 10) ∧ ∀ l, cart (boxOf fun _ => (10 : ℚ)) (exDriftS i (j + 1)) l - cart (boxOf fun _ => 10) (exDriftS i j) l =
      exVel i l - cart (boxOf fun _ => 10) (fun k => (((if k = 0 ∧ i = 0 ∧ j = 0 then 1 else 0 : ℤ)) : ℚ)) l := by
    unfold HalfCell
    decide +kernel
  obtain ⟨d1, d2⟩ := hd i hi j (by omega)
  refine ⟨⟨_, d1, fun l => ?_⟩, fun k => if k = 0 ∧ i = 0 ∧ j = 0 then 1 else 0, fun l => ?_⟩
  · rw [cart_boxOf]
    push_cast
    ring
  · rw [d2]
    push_cast
    ring

/-- `C137_cage`: the atoms of `exCage` stay within a distance of 2, and a fit from 18 on gives the gradient 1/36. -/
example : ∃ Z, exCageRun (fun _ => 10) exCageS = .ok (Z, ()) ∧ (∀ y ∈ Z.diff.n, y ≤ 4) ∧ Z.diff.dt[2]? = some 18 ∧
    (∃ best, BestRay (fitLL Z.diff 2 0 !![72, -48; -48, 36]) (1 / 36) best) ∧ (1 / 36 : ℚ) * 18 ≤ 4 := by
  obtain ⟨⟨Z, g⟩, h⟩ := ok_of_isSome (x := exCageRun (fun _ => 10) exCageS) (by decide +kernel)
  have k1 : (exCageRun (fun _ => 10) exCageS).toOption.map (fun z => (z.1.diff.n, z.1.diff.v)) = some ([11 / 8, 1, 1 / 2, 1 / 2], [some (159 / 448), some (3 / 5), some (1 / 8), some (1 / 4)]) := by
    decide +kernel
  have k2 : (exCageRun (fun _ => 10) exCageS).toOption.map (fun z => (z.1.diff.nO, z.1.diff.dt)) = some ([8, 4, 8 / 3, 2], [6, 12, 18, 24]) := by decide +kernel
  rw [h] at k1 k2
  have k1 := Option.some.inj k1
  have k2 := Option.some.inj k2
  simp only [Prod.mk.injEq] at k1 k2
  obtain ⟨n1, n2⟩ := k1
  obtain ⟨n3, n4⟩ := k2
  have hc : ∀ i ∈ [0, 2], ∀ a < 4, ∀ b < 4, lengthSq (axesOf exUnc.dimension) (trueMove unitCell exCage [1] i a b) ≤ 4 := by decide +kernel
  obtain ⟨p1, p2⟩ := C137_cage exNum exParams exSelect ["Li", "O", "Li"] _ _ exPicks exGrid 4 (by decide) (fun j => boxOf fun _ => 10) (fun j => 10 ^ 3) exCageS exCage exCage_stored id (exOracle ℚ)
    exUnc rfl rfl () () Z _ 1 (.inl ⟨rfl, rfl⟩) h 4 (by norm_num) hc
  have hW : FitWeights Z.diff 2 !![72, -48; -48, (36 : ℚ)] :=
    ⟨!![1 / 8, 1 / 6; 1 / 6, 1 / 4], by rw [n2, n3]; exact ok_of_toOption (by decide +kernel), by decide +kernel⟩
  have hv : ∀ i, 2 ≤ i → i < Z.diff.n.length → ∃ y, Z.diff.v[i]? = some (some y) ∧ 0 < y := by
    rw [n1, n2]
    intro i h1 h2
    simp only [List.length_cons, List.length_nil] at h2
    obtain rfl | rfl : i = 2 ∨ i = 3 := by omega
    · exact ⟨1 / 8, rfl, by norm_num⟩
    · exact ⟨1 / 4, rfl, by norm_num⟩
  have hray := (fit_ray (m := 1) hW (by rw [n1]; rfl) (by rw [n1, n2]; rfl) (by rw [n1, n4]; rfl) hv (by rw [n3]; decide +kernel) 48 (by
    rw [n3, n4]
    intro k t N ht hN
    match k with
    | 0 | 1 | 2 | 3 => simp at ht hN; subst ht hN; norm_num
    | k + 4 => simp at ht) (by rw [n4]; decide +kernel) (by rw [n1]; decide +kernel) 0 (1 / 36)).2 (by rw [n1, n4]; norm_num)
  obtain ⟨best, hb⟩ := hray
  exact ⟨Z, h, p1, by rw [n4]; rfl, ⟨best, hb⟩, p2 2 1 _ 0 _ best 18 (by rw [n3]; decide +kernel) hW (by rw [n1]; rfl) hv (by rw [n4]; rfl) hb⟩

end Kinisi
