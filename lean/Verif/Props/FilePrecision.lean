import Verif.Props.Collective
import Mathlib.Algebra.Order.BigOperators.Ring.Finset
import Mathlib.Analysis.Real.Sqrt

/-!
# C139: the precision of the stored coordinates
-/

set_option linter.unusedSectionVars false
set_option linter.unusedVariables false

namespace Kinisi
open Spec
variable {K : Type} [Field K] [LinearOrder K] [IsStrictOrderedRing K] [FloorRing K] {G : Type}

/-- The default intervals depend on the number of frames and on `n_steps` only. -/
theorem default_grid (geo : ℤ → ℤ → ℕ → ℕ → K) {ts ss : PyNum K} (hpos : 0 < ss.val * ts.val) {T : ℕ} (hT : 2 ≤ T) (nSteps : ℤ) :
    initTimeIntervals id geo T ts ss none none nSteps "linear" = linspaceInt (id : K → K) 1 T (if nSteps > T then T else nSteps) := by
  have hmax : (PyNum.mul id (PyNum.int (T : ℤ)) (PyNum.mul id ss ts)).val = (T : K) * (ss.val * ts.val) := by
    rw [PyNum.val_mul_id, PyNum.val_mul_id]; simp [PyNum.val]
  have hTd : ⌊(T : K) * (ss.val * ts.val) / (ss.val * ts.val)⌋ = T := by rw [mul_div_cancel_right₀ _ hpos.ne']; simp
  have h1 : stepsOf id ts ss (ss.val * ts.val) = .ok 1 := by
    rw [stepsOf_id hpos hpos.le, div_self hpos.ne']; simp
  have h2 : stepsOf id ts ss ((T : K) * (ss.val * ts.val)) = .ok (T : ℤ) := by
    rw [stepsOf_id hpos (by positivity), hTd]
  unfold initTimeIntervals
  dsimp only [maxDtOf, minDtOf]
  rw [hmax, PyNum.val_mul_id, h1]
  simp only [bind, Except.bind]
  rw [if_neg (by omega)]
  unfold getTimeIntervals
  simp only [h1, h2, bind, Except.bind, one_ne_zero, if_false, if_true, sub_add_cancel]

/-- Two readings with the same arguments of files with the same number of frames have the same intervals. -/
theorem same_taus {E : Num K} {P : Params K} {S : Select K} {sy : List String} {atoms fw : List ℕ} (hS : Picks S sy atoms fw) (hP : DefaultGrid E P) {F : ℕ} (hF : 2 ≤ F) {C : ℕ → M3 K}
    {V : ℕ → K} {s x s' x' : ℕ → ℕ → V3 K} (hs : StoredIn F sy.length C s x) (hs' : StoredIn F sy.length C s' x') {base base' : PyM (Base K)} {unit : K}
    (hbase : ReadFrames E P S (cellFrames F sy C V s) (cellUniverse F sy C V s) base unit) (hbase' : ReadFrames E P S (cellFrames F sy C V s') (cellUniverse F sy C V s') base' unit)
    {B B' : Base K} (hB : base = .ok B) (hB' : base' = .ok B') :
    ∃ taus : List ℕ, TrueBase unitCell (V 0) x fw atoms F P.nSteps (fun τ : ℕ => (τ : K) * P.stepSkip.val * P.timeStep.val / unit) taus B ∧
      TrueBase unitCell (V 0) x' fw atoms F P.nSteps (fun τ : ℕ => (τ : K) * P.stepSkip.val * P.timeStep.val / unit) taus B' := by
  have one : ∀ {s x : ℕ → ℕ → V3 K} (hs : StoredIn F sy.length C s x) {base : PyM (Base K)} (hbase : ReadFrames E P S (cellFrames F sy C V s) (cellUniverse F sy C V s) base unit) {B : Base K}
      (hB : base = .ok B), ∃ taus : List ℕ, linspaceInt (id : K → K) 1 F (if P.nSteps > F then F else P.nSteps) = .ok (taus.map fun τ : ℕ => (τ : ℤ)) ∧
        TrueBase unitCell (V 0) x fw atoms F P.nSteps (fun τ : ℕ => (τ : K) * P.stepSkip.val * P.timeStep.val / unit) taus B := by
    intro s x hs base hbase B hB
    obtain ⟨f0, rest, hw, hlen, hv, hf⟩ := cell_follows (E := E) (V := V) hS hF hs
    rw [hw] at hbase
    have hU : ∀ fr, (cellUniverse F sy C V s).2.mapM (mdaFrame (cellUniverse F sy C V s).1 1) = .ok fr → fr = f0 :: rest := fun fr h => (cellUniverse_frames h).trans hw
    obtain ⟨taus, ht⟩ := frames_base hP hF hlen hf hU hbase hB
    obtain ⟨hfl, hpos, hmn, hmx, hsp, hsm⟩ := hP
    obtain ⟨taus', ss, hss, hti, hb⟩ := frames_any hfl hsm hlen hf (by
      rw [hmn, hmx, hsp]
      intro ss hss l hl
      exact (default_intervals (by rw [hss]; exact hpos) hF hl).1) hU hbase hB
    have hu : unit ≠ 0 := by rcases hbase with ⟨-, rfl⟩ | ⟨-, rfl⟩ | ⟨-, rfl⟩ <;> norm_num
    have hinj : Function.Injective fun τ : ℕ => (τ : K) * P.stepSkip.val * P.timeStep.val / unit := by
      intro a b hab
      dsimp only at hab
      rw [div_left_inj' hu, mul_assoc, mul_assoc, mul_left_inj' hpos.ne'] at hab
      exact_mod_cast hab
    obtain rfl : taus = taus' := List.map_injective_iff.2 hinj (ht.deltaT.symm.trans hb.deltaT)
    rw [hv] at ht
    refine ⟨taus, ?_, ht⟩
    rw [hmn, hmx, hsp, default_grid E.geo (by rw [hss]; exact hpos) hF] at hti
    exact hti
  obtain ⟨taus, h1, h2⟩ := one hs hbase hB
  obtain ⟨taus', h1', h2'⟩ := one hs' hbase' hB'
  rw [h1] at h1'
  obtain rfl : taus = taus' := List.map_injective_iff.2 (fun a b h => by exact_mod_cast h) (Except.ok.inj h1')
  exact ⟨taus, h2, h2'⟩

/-- Minkowski's inequality from its squared form with a free parameter. -/
theorem le_add_sq {y r δ : K} (hr : 0 ≤ r) (hδ : 0 ≤ δ) (h : ∀ t, 0 < t → y ≤ (1 + t) * r ^ 2 + (1 + 1 / t) * δ ^ 2) : y ≤ (r + δ) ^ 2 := by
  rcases hr.eq_or_lt with rfl | hr
  · by_contra hc
    push Not at hc
    have h1 : 0 < y - δ ^ 2 := by nlinarith
    rcases hδ.eq_or_lt with rfl | hδ
    · have := h 1 one_pos
      nlinarith
    · have := h (2 * δ ^ 2 / (y - δ ^ 2)) (by positivity)
      have e : (1 / (2 * δ ^ 2 / (y - δ ^ 2))) * δ ^ 2 = (y - δ ^ 2) / 2 := by field_simp
      rw [add_mul, add_mul, e] at this
      nlinarith
  rcases hδ.eq_or_lt with rfl | hδ
  · by_contra hc
    push Not at hc
    have h1 : 0 < y - r ^ 2 := by nlinarith
    have := h ((y - r ^ 2) / (2 * r ^ 2)) (by positivity)
    have e : (y - r ^ 2) / (2 * r ^ 2) * r ^ 2 = (y - r ^ 2) / 2 := by field_simp
    rw [add_mul, e] at this
    nlinarith
  · have := h (δ / r) (by positivity)
    have e : (1 + δ / r) * r ^ 2 + (1 + 1 / (δ / r)) * δ ^ 2 = (r + δ) ^ 2 := by field_simp; ring
    rwa [e] at this

theorem lengthSq_add_le {A : Finset (Fin 3)} (v d : V3 K) {t : K} (ht : 0 < t) : lengthSq A (fun l => v l + d l) ≤ (1 + t) * lengthSq A v + (1 + 1 / t) * lengthSq A d := by
  unfold lengthSq
  rw [Finset.mul_sum, Finset.mul_sum, ← Finset.sum_add_distrib]
  refine Finset.sum_le_sum fun l _ => ?_
  have : 0 ≤ (t * v l - d l) ^ 2 / t := by positivity
  have e : (t * v l - d l) ^ 2 / t = t * v l ^ 2 - 2 * (v l * d l) + 1 / t * d l ^ 2 := by field_simp; ring
  rw [e] at this
  nlinarith

/-- The averages inherit a bound of the windows. -/
theorem reportedMsd_lin {A : Finset (Fin 3)} {L : M3 K} {u w : ℕ → ℕ → V3 K} {fw atoms : List ℕ} {F τ : ℕ} {p b : K} (hb : 0 ≤ b) (h1 : 1 ≤ τ) (h2 : τ ≤ F)
    (h : ∀ i ∈ atoms, ∀ a < F, ∀ c < F, lengthSq A (trueMove L w fw i a c) ≤ p * lengthSq A (trueMove L u fw i a c) + b) :
    reportedMsd A L w fw atoms F τ ≤ p * reportedMsd A L u fw atoms F τ + b := by
  unfold reportedMsd
  have hs : (atoms.map fun i => lengthSq A (trueMove L w fw i 0 (τ - 1)) + ∑ s ∈ Finset.range (F - τ), lengthSq A (trueMove L w fw i s (s + τ))).sum ≤
      (atoms.map fun i => p * (lengthSq A (trueMove L u fw i 0 (τ - 1)) + ∑ s ∈ Finset.range (F - τ), lengthSq A (trueMove L u fw i s (s + τ))) + ((F - τ + 1 : ℕ) : K) * b).sum := by
    refine List.sum_le_sum fun i hi => ?_
    have e1 := h i hi 0 (by omega) (τ - 1) (by omega)
    have e2 : ∑ s ∈ Finset.range (F - τ), lengthSq A (trueMove L w fw i s (s + τ)) ≤ ∑ s ∈ Finset.range (F - τ), (p * lengthSq A (trueMove L u fw i s (s + τ)) + b) := by
      refine Finset.sum_le_sum fun s hs => ?_
      rw [Finset.mem_range] at hs
      exact h i hi s (by omega) _ (by omega)
    rw [Finset.sum_add_distrib, ← Finset.mul_sum, Finset.sum_const, Finset.card_range, nsmul_eq_mul] at e2
    push_cast
    linarith
  have er : ∀ f : ℕ → K, (atoms.map fun i => p * f i + ((F - τ + 1 : ℕ) : K) * b).sum = p * (atoms.map f).sum + (atoms.length : K) * (((F - τ + 1 : ℕ) : K) * b) := fun f => by
    rw [List.sum_map_add, List.sum_map_mul_left, List.map_const', List.sum_replicate, nsmul_eq_mul]
  rw [er] at hs
  rcases Nat.eq_zero_or_pos atoms.length with h0 | h0
  · rw [h0]; simp [hb]
  · have hp : (0 : K) < (atoms.length : K) * ((F - τ + 1 : ℕ) : K) := by positivity
    rw [div_le_iff₀ hp, add_mul, mul_div_assoc', div_mul_cancel₀ _ hp.ne']
    linarith

theorem reportedTotal_lin {A : Finset (Fin 3)} {L : M3 K} {u w : ℕ → ℕ → V3 K} {fw atoms : List ℕ} {q : ℕ → K} {F τ : ℕ} {p b : K} (h1 : 1 ≤ τ) (h2 : τ ≤ F)
    (h : ∀ a < F, ∀ c < F, lengthSq A (totalMove L w fw atoms q a c) ≤ p * lengthSq A (totalMove L u fw atoms q a c) + b) :
    reportedTotal A L w fw atoms q F τ ≤ p * reportedTotal A L u fw atoms q F τ + b := by
  unfold reportedTotal
  have e1 := h 0 (by omega) (τ - 1) (by omega)
  have e2 : ∑ s ∈ Finset.range (F - τ), lengthSq A (totalMove L w fw atoms q s (s + τ)) ≤ ∑ s ∈ Finset.range (F - τ), (p * lengthSq A (totalMove L u fw atoms q s (s + τ)) + b) := by
    refine Finset.sum_le_sum fun s hs => ?_
    rw [Finset.mem_range] at hs
    exact h s (by omega) _ (by omega)
  rw [Finset.sum_add_distrib, ← Finset.mul_sum, Finset.sum_const, Finset.card_range, nsmul_eq_mul] at e2
  have hp : (0 : K) < ((F - τ + 1 : ℕ) : K) := by positivity
  rw [div_le_iff₀ hp, add_mul, mul_div_assoc', div_mul_cancel₀ _ hp.ne']
  push_cast
  linarith

/-- The stored coordinates `s'` are those of `s`, each off by at most `ε` of a cell vector, and by a distance of at most `η` along the axes `A`, and perhaps in another image of the cell (as when
0.9999 is rounded to 1 or to 0). -/
def StoredWithin (F n : ℕ) (L : M3 K) (A : Finset (Fin 3)) (ε η : K) (s s' : ℕ → ℕ → V3 K) : Prop :=
  ∀ i < n, ∀ j < F, ∃ (e : V3 K) (m : Fin 3 → ℤ), (∀ k, |e k| ≤ ε) ∧ lengthSq A (cart L e) ≤ η ^ 2 ∧ ∀ k, s' i j k = s i j k + e k + m k

/-- The steps of the path keep a distance of `2 ε` from half the cell. -/
def StepsWithin (F n : ℕ) (L : M3 K) (ε : K) (x : ℕ → ℕ → V3 K) : Prop :=
  ∀ i < n, ∀ j, j + 1 < F → ∃ h : V3 K, (∀ k, |h k| + 2 * ε < 1 / 2) ∧ ∀ l, x i (j + 1) l - x i j l = cart L h l

/-- The other coordinates are how another path would be stored, nowhere further than `η` from the first. -/
theorem within_path {F n : ℕ} {L : M3 K} {A : Finset (Fin 3)} {ε η : K} {s s' x : ℕ → ℕ → V3 K} (hs : StoredIn F n (fun _ => L) s x) (hx : StepsWithin F n L ε x)
    (hw : StoredWithin F n L A ε η s s') :
    ∃ d : ℕ → ℕ → V3 K, StoredIn F n (fun _ => L) s' (fun i j l => x i j l + d i j l) ∧ ∀ i < n, ∀ j < F, lengthSq A (d i j) ≤ η ^ 2 := by
  choose! e m h1 h2 h3 using hw
  refine ⟨fun i j => cart L (e i j), ?_, fun i hi j hj => h2 i hi j hj⟩
  intro i hi j hj
  obtain ⟨h, hh, hxl⟩ := hx i hi j hj
  obtain ⟨-, c, hc⟩ := hs i hi j hj
  refine ⟨⟨fun k => h k + (e i (j + 1) k - e i j k), fun k => ?_, fun l => ?_⟩, fun k => c k + m i j k - m i (j + 1) k, fun l => ?_⟩
  · have a2 := abs_le.1 (h1 i hi j (by omega) k)
    have a3 := abs_le.1 (h1 i hi (j + 1) hj k)
    have a4 := hh k
    have a5 := neg_abs_le (h k)
    have a6 := le_abs_self (h k)
    constructor <;> linarith
  · have := hxl l
    simp only [cart, Fin.sum_univ_three] at this ⊢
    linarith
  · have e1 := h3 i hi j (by omega)
    have e2 := h3 i hi (j + 1) hj
    have := hc l
    simp only [cart, Fin.sum_univ_three, e1, e2] at this ⊢
    push_cast
    linarith

/-- The two true displacements differ by little. -/
theorem trueMove_within {A : Finset (Fin 3)} {n F : ℕ} {x d : ℕ → ℕ → V3 K} {η : K} (hd : ∀ i < n, ∀ j < F, lengthSq A (d i j) ≤ η ^ 2) {fw : List ℕ} {i : ℕ} (hi : i < n) (hfw : ∀ k ∈ fw, k < n)
    {a b : ℕ} (ha : a < F) (hb : b < F) :
    (∀ l, trueMove unitCell (fun i j l => x i j l + d i j l) fw i a b l = trueMove unitCell x fw i a b l + trueMove unitCell d fw i a b l) ∧
      lengthSq A (trueMove unitCell d fw i a b) ≤ (4 * η) ^ 2 ∧ (fw = [] → lengthSq A (trueMove unitCell d fw i a b) ≤ (2 * η) ^ 2) := by
  constructor
  · intro l
    simp only [trueMove, cart_unit]
    have : (meanOver fw fun k => x k b l + d k b l - (x k a l + d k a l)) = (meanOver fw fun k => x k b l - x k a l) + meanOver fw fun k => d k b l - d k a l := by
      unfold meanOver
      rw [← add_div, ← List.sum_map_add]
      congr 2
      refine List.map_congr_left fun k _ => ?_
      ring
    rw [this]
    ring
  have h2 : ∀ k < n, lengthSq A (fun l => d k b l - d k a l) ≤ (2 * η) ^ 2 := by
    intro k hk
    have e1 := hd k hk a ha
    have e2 := hd k hk b hb
    calc lengthSq A (fun l => d k b l - d k a l) ≤ 2 * lengthSq A (d k b) + 2 * lengthSq A (d k a) := by
          unfold lengthSq
          rw [Finset.mul_sum, Finset.mul_sum, ← Finset.sum_add_distrib]
          refine Finset.sum_le_sum fun l _ => ?_
          nlinarith [sq_nonneg (d k b l + d k a l)]
      _ ≤ (2 * η) ^ 2 := by nlinarith
  have := move_speed (A := A) (x := d) (fw := fw) (i := i) (a := a) (b := b) (sq_nonneg (2 * η)) fun k hk => h2 k (by
    rcases hk with rfl | hk
    · exact hi
    · exact hfw k hk)
  refine ⟨this.1.trans (by nlinarith), this.2⟩

/-- **C139, MSD.** The same path, read from files of which one holds the coordinates less precisely: each off by up to `ε` of a cell vector, that is, by a distance of up to `η`.  If the true steps keep
`2 ε` from half the cell, the root mean squared displacements differ by at most `4 η` (`2 η` without a framework), for every interval, however many frames there are: the errors of the steps do not add up. -/
theorem C139_msd (E : Num K) (P : Params K) (S : Select K) (sy : List String) (atoms fw : List ℕ) (hS : Picks S sy atoms fw) (hP : DefaultGrid E P) (F : ℕ) (hF : 2 ≤ F) (L : M3 K) (V : ℕ → K)
    (s s' x : ℕ → ℕ → V3 K) (hs : StoredIn F sy.length (fun _ => L) s x) (ε η : K) (hη : 0 ≤ η) (hx : StepsWithin F sy.length L ε x) (U : UncParams K)
    (hw : StoredWithin F sy.length L (axesOf U.dimension) ε η s s') (sq : K → K) (o : Oracle K G) (hblock : U.opt.block = false) (hsub : U.sub = 1) (g g₁ g₂ : G) (Z Z' : Analyzer K)
    (base base' : PyM (Base K)) (unit : K) (hbase : ReadFrames E P S (cellFrames F sy (fun _ => L) V s) (cellUniverse F sy (fun _ => L) V s) base unit)
    (hbase' : ReadFrames E P S (cellFrames F sy (fun _ => L) V s') (cellUniverse F sy (fun _ => L) V s') base' unit) (h : diffusionAnalyzer sq o g U base = .ok (Z, g₁))
    (h' : diffusionAnalyzer sq o g U base' = .ok (Z', g₂)) :
    Z'.diff.dt = Z.diff.dt ∧ List.Forall₂ (fun y y' => ∀ r, 0 ≤ r → (y ≤ r ^ 2 → y' ≤ (r + 4 * η) ^ 2) ∧ (y' ≤ r ^ 2 → y ≤ (r + 4 * η) ^ 2) ∧
      (fw = [] → (y ≤ r ^ 2 → y' ≤ (r + 2 * η) ^ 2) ∧ (y' ≤ r ^ 2 → y ≤ (r + 2 * η) ^ 2))) Z.diff.n Z'.diff.n := by
  obtain ⟨d, hd1, hd2⟩ := within_path hs hx hw
  obtain ⟨B, hB, rfl, hm⟩ := diffusion_inv h
  obtain ⟨B', hB', rfl, hm'⟩ := diffusion_inv h'
  obtain ⟨taus, t1, t2⟩ := same_taus hS hP hF hs hd1 hbase hbase' hB hB'
  obtain ⟨n1, e1⟩ := msd_of_parsed t1 hblock hsub hm
  obtain ⟨n2, e2⟩ := msd_of_parsed t2 hblock hsub hm'
  refine ⟨e2.trans e1.symm, ?_⟩
  rw [n1, n2, List.forall₂_map_left_iff, List.forall₂_map_right_iff, List.forall₂_same]
  intro τ hτ r hr
  obtain ⟨h1, h2⟩ := t1.range τ (List.mem_filter.mp hτ).1
  have hmv := fun i (hi : i ∈ atoms) a ha b hb => trueMove_within (x := x) hd2 (i := i) ((picks_mem hS).1 i hi) (picks_mem hS).2 (a := a) (b := b) ha hb
  have up : ∀ δ : K, 0 ≤ δ → (∀ i ∈ atoms, ∀ a < F, ∀ b < F, lengthSq (axesOf U.dimension) (trueMove unitCell d fw i a b) ≤ δ ^ 2) →
      reportedMsd (axesOf U.dimension) unitCell x fw atoms F τ ≤ r ^ 2 → reportedMsd (axesOf U.dimension) unitCell (fun i j l => x i j l + d i j l) fw atoms F τ ≤ (r + δ) ^ 2 := by
    intro δ hδ hle hy
    refine le_add_sq hr hδ fun t ht => ?_
    refine (reportedMsd_lin (u := x) (p := 1 + t) (b := (1 + 1 / t) * δ ^ 2) (by positivity) h1 h2 fun i hi a ha b hb => ?_).trans (by
      have : 0 ≤ 1 + t := by positivity
      nlinarith [mul_le_mul_of_nonneg_left hy this])
    rw [show trueMove unitCell (fun i j l => x i j l + d i j l) fw i a b = fun l => trueMove unitCell x fw i a b l + trueMove unitCell d fw i a b l from funext (hmv i hi a ha b hb).1]
    refine (lengthSq_add_le _ _ ht).trans ?_
    have := mul_le_mul_of_nonneg_left (hle i hi a ha b hb) (show 0 ≤ 1 + 1 / t by positivity)
    linarith
  have down : ∀ δ : K, 0 ≤ δ → (∀ i ∈ atoms, ∀ a < F, ∀ b < F, lengthSq (axesOf U.dimension) (trueMove unitCell d fw i a b) ≤ δ ^ 2) →
      reportedMsd (axesOf U.dimension) unitCell (fun i j l => x i j l + d i j l) fw atoms F τ ≤ r ^ 2 → reportedMsd (axesOf U.dimension) unitCell x fw atoms F τ ≤ (r + δ) ^ 2 := by
    intro δ hδ hle hy
    refine le_add_sq hr hδ fun t ht => ?_
    refine (reportedMsd_lin (u := fun i j l => x i j l + d i j l) (p := 1 + t) (b := (1 + 1 / t) * δ ^ 2) (by positivity) h1 h2 fun i hi a ha b hb => ?_).trans (by
      have : 0 ≤ 1 + t := by positivity
      nlinarith [mul_le_mul_of_nonneg_left hy this])
    have e : trueMove unitCell x fw i a b = fun l => trueMove unitCell (fun i j l => x i j l + d i j l) fw i a b l + (-trueMove unitCell d fw i a b l) := by
      funext l
      rw [(hmv i hi a ha b hb).1 l]
      ring
    rw [e]
    refine (lengthSq_add_le _ _ ht).trans ?_
    have hn : lengthSq (axesOf U.dimension) (fun l => -trueMove unitCell d fw i a b l) = lengthSq (axesOf U.dimension) (trueMove unitCell d fw i a b) := by
      unfold lengthSq
      simp only [neg_sq]
    rw [hn]
    have := mul_le_mul_of_nonneg_left (hle i hi a ha b hb) (show 0 ≤ 1 + 1 / t by positivity)
    linarith
  have b4 := fun i hi a ha b hb => (hmv i hi a ha b hb).2.1
  have b2 := fun hf i hi a ha b hb => (hmv i hi a ha b hb).2.2 hf
  exact ⟨up _ (by positivity) b4, down _ (by positivity) b4, fun hf => ⟨up _ (by positivity) (b2 hf), down _ (by positivity) (b2 hf)⟩⟩

/-- In terms of square roots. -/
theorem root_within {y y' δ : ℝ} (hδ : 0 ≤ δ) (hy : 0 ≤ y) (hy' : 0 ≤ y') (h : ∀ r, 0 ≤ r → (y ≤ r ^ 2 → y' ≤ (r + δ) ^ 2) ∧ (y' ≤ r ^ 2 → y ≤ (r + δ) ^ 2)) : |√y' - √y| ≤ δ := by
  have h1 := (h (√y) (Real.sqrt_nonneg _)).1 (Real.sq_sqrt hy).ge
  have h2 := (h (√y') (Real.sqrt_nonneg _)).2 (Real.sq_sqrt hy').ge
  rw [abs_le]
  have e1 : √y' ≤ √y + δ := Real.sqrt_le_iff.2 ⟨by positivity, h1⟩
  have e2 : √y ≤ √y' + δ := Real.sqrt_le_iff.2 ⟨by positivity, h2⟩
  constructor <;> linarith

/-- A weighted sum of vectors is no longer than the longest times the sum of the weights. -/
theorem lengthSq_weighted {A : Finset (Fin 3)} {n : ℕ} {q : Fin n → K} {v : Fin n → V3 K} {B : K} (hv : ∀ j, lengthSq A (v j) ≤ B) :
    lengthSq A (fun l => ∑ j, q j * v j l) ≤ (∑ j, |q j|) ^ 2 * B := by
  unfold lengthSq at hv ⊢
  calc ∑ l ∈ A, (∑ j, q j * v j l) ^ 2 ≤ ∑ l ∈ A, (∑ j, |q j|) * ∑ j, |q j| * v j l ^ 2 := by
        refine Finset.sum_le_sum fun l _ => ?_
        refine Finset.sum_sq_le_sum_mul_sum_of_sq_eq_mul _ (fun j _ => abs_nonneg _) (fun j _ => by positivity) fun j _ => ?_
        rw [mul_pow, ← sq_abs (q j)]
        ring
    _ = (∑ j, |q j|) * ∑ j, |q j| * ∑ l ∈ A, v j l ^ 2 := by
        rw [← Finset.mul_sum, Finset.sum_comm]
        simp only [Finset.mul_sum]
    _ ≤ (∑ j, |q j|) * ∑ j, |q j| * B :=
        mul_le_mul_of_nonneg_left (Finset.sum_le_sum fun j _ => mul_le_mul_of_nonneg_left (hv j) (abs_nonneg _)) (Finset.sum_nonneg fun j _ => abs_nonneg _)
    _ = (∑ j, |q j|) ^ 2 * B := by
        rw [← Finset.sum_mul]
        ring

/-- The averages of the total displacement. -/
theorem reportedTotal_within {A : Finset (Fin 3)} {n F : ℕ} {x d : ℕ → ℕ → V3 K} {η : K} (hη : 0 ≤ η) (hd : ∀ i < n, ∀ j < F, lengthSq A (d i j) ≤ η ^ 2) {fw atoms : List ℕ} (hat : ∀ k ∈ atoms, k < n)
    (hfw : ∀ k ∈ fw, k < n) {q : ℕ → K} {τ : ℕ} (h1 : 1 ≤ τ) (h2 : τ ≤ F) {r : K} (hr : 0 ≤ r) :
    (reportedTotal A unitCell x fw atoms q F τ ≤ r ^ 2 → reportedTotal A unitCell (fun i j l => x i j l + d i j l) fw atoms q F τ ≤ (r + (∑ j : Fin atoms.length, |q j|) * (4 * η)) ^ 2) ∧
    (reportedTotal A unitCell (fun i j l => x i j l + d i j l) fw atoms q F τ ≤ r ^ 2 → reportedTotal A unitCell x fw atoms q F τ ≤ (r + (∑ j : Fin atoms.length, |q j|) * (4 * η)) ^ 2) := by
  have hw := fun (j : Fin atoms.length) a ha b hb => trueMove_within (x := x) hd (i := atoms[j]) (hat _ (List.getElem_mem _)) hfw (a := a) (b := b) ha hb
  have add : ∀ a < F, ∀ b < F, ∀ l, totalMove unitCell (fun i j l => x i j l + d i j l) fw atoms q a b l = totalMove unitCell x fw atoms q a b l + totalMove unitCell d fw atoms q a b l := by
    intro a ha b hb l
    unfold totalMove
    rw [← Finset.sum_add_distrib]
    refine Finset.sum_congr rfl fun j _ => ?_
    rw [(hw j a ha b hb).1 l]
    ring
  have small : ∀ a < F, ∀ b < F, lengthSq A (totalMove unitCell d fw atoms q a b) ≤ ((∑ j : Fin atoms.length, |q j|) * (4 * η)) ^ 2 := by
    intro a ha b hb
    rw [mul_pow]
    exact lengthSq_weighted (q := fun j : Fin atoms.length => q j) fun j => (hw j a ha b hb).2.1
  have hδ : 0 ≤ (∑ j : Fin atoms.length, |q j|) * (4 * η) := mul_nonneg (Finset.sum_nonneg fun j _ => abs_nonneg _) (by positivity)
  set δ := (∑ j : Fin atoms.length, |q j|) * (4 * η)
  constructor
  · intro hy
    refine le_add_sq hr hδ fun t ht => ?_
    refine (reportedTotal_lin (u := x) (p := 1 + t) (b := (1 + 1 / t) * δ ^ 2) h1 h2 fun a ha b hb => ?_).trans (by
      have : 0 ≤ 1 + t := by positivity
      nlinarith [mul_le_mul_of_nonneg_left hy this])
    rw [show totalMove unitCell (fun i j l => x i j l + d i j l) fw atoms q a b = fun l => totalMove unitCell x fw atoms q a b l + totalMove unitCell d fw atoms q a b l from funext (add a ha b hb)]
    refine (lengthSq_add_le _ _ ht).trans ?_
    have := mul_le_mul_of_nonneg_left (small a ha b hb) (show 0 ≤ 1 + 1 / t by positivity)
    linarith
  · intro hy
    refine le_add_sq hr hδ fun t ht => ?_
    refine (reportedTotal_lin (u := fun i j l => x i j l + d i j l) (p := 1 + t) (b := (1 + 1 / t) * δ ^ 2) h1 h2 fun a ha b hb => ?_).trans (by
      have : 0 ≤ 1 + t := by positivity
      nlinarith [mul_le_mul_of_nonneg_left hy this])
    have e : totalMove unitCell x fw atoms q a b = fun l => totalMove unitCell (fun i j l => x i j l + d i j l) fw atoms q a b l + (-totalMove unitCell d fw atoms q a b l) := by
      funext l
      rw [add a ha b hb l]
      ring
    rw [e]
    refine (lengthSq_add_le _ _ ht).trans ?_
    have hn : lengthSq A (fun l => -totalMove unitCell d fw atoms q a b l) = lengthSq A (totalMove unitCell d fw atoms q a b) := by
      unfold lengthSq
      simp only [neg_sq]
    rw [hn]
    have := mul_le_mul_of_nonneg_left (small a ha b hb) (show 0 ≤ 1 + 1 / t by positivity)
    linarith

/-- **C139, MSTD.** The same for the total displacement of `N` atoms: the roots differ by at most `4 N η`. -/
theorem C139_mstd (E : Num K) (P : Params K) (S : Select K) (sy : List String) (atoms fw : List ℕ) (hS : Picks S sy atoms fw) (hP : DefaultGrid E P) (F : ℕ) (hF : 2 ≤ F) (L : M3 K) (V : ℕ → K)
    (s s' x : ℕ → ℕ → V3 K) (hs : StoredIn F sy.length (fun _ => L) s x) (ε η : K) (hη : 0 ≤ η) (hx : StepsWithin F sy.length L ε x) (U : UncParams K)
    (hw : StoredWithin F sy.length L (axesOf U.dimension) ε η s s') (sq : K → K) (o : Oracle K G) (hblock : U.opt.block = false) (hsub : U.sub = 1) (g g₁ g₂ : G) (Z Z' : Analyzer K)
    (base base' : PyM (Base K)) (unit : K) (hbase : ReadFrames E P S (cellFrames F sy (fun _ => L) V s) (cellUniverse F sy (fun _ => L) V s) base unit)
    (hbase' : ReadFrames E P S (cellFrames F sy (fun _ => L) V s') (cellUniverse F sy (fun _ => L) V s') base' unit) (h : jumpAnalyzer sq o g U base = .ok (Z, g₁))
    (h' : jumpAnalyzer sq o g U base' = .ok (Z', g₂)) :
    Z'.diff.dt = Z.diff.dt ∧ List.Forall₂ (fun y y' => ∀ r, 0 ≤ r → (y ≤ r ^ 2 → y' ≤ (r + (atoms.length : K) * (4 * η)) ^ 2) ∧ (y' ≤ r ^ 2 → y ≤ (r + (atoms.length : K) * (4 * η)) ^ 2))
      Z.diff.n Z'.diff.n := by
  obtain ⟨d, hd1, hd2⟩ := within_path hs hx hw
  obtain ⟨B, hB, rfl, hm⟩ := jump_inv h
  obtain ⟨B', hB', rfl, hm'⟩ := jump_inv h'
  obtain ⟨taus, t1, t2⟩ := same_taus hS hP hF hs hd1 hbase hbase' hB hB'
  obtain ⟨n1, e1⟩ := mstd_of_parsed t1 hblock hsub hm
  obtain ⟨n2, e2⟩ := mstd_of_parsed t2 hblock hsub hm'
  refine ⟨e2.trans e1.symm, ?_⟩
  rw [n1, n2, List.forall₂_map_left_iff, List.forall₂_map_right_iff, List.forall₂_same]
  intro τ hτ r hr
  obtain ⟨h1, h2⟩ := t1.range τ (List.mem_filter.mp (List.mem_of_mem_take hτ)).1
  have := reportedTotal_within (q := fun _ => 1) hη hd2 (x := x) (picks_mem hS).1 (picks_mem hS).2 h1 h2 hr
  simpa using this

/-- **C139, MSCD.** The same for the charge displacement: the roots differ by at most `4 η` times the sum of the absolute charges. -/
theorem C139_mscd (E : Num K) (P : Params K) (S : Select K) (sy : List String) (atoms fw : List ℕ) (hS : Picks S sy atoms fw) (hP : DefaultGrid E P) (F : ℕ) (hF : 2 ≤ F) (L : M3 K) (V : ℕ → K)
    (s s' x : ℕ → ℕ → V3 K) (hs : StoredIn F sy.length (fun _ => L) s x) (ε η : K) (hη : 0 ≤ η) (hx : StepsWithin F sy.length L ε x) (U : UncParams K)
    (hw : StoredWithin F sy.length L Finset.univ ε η s s') (sq : K → K) (o : Oracle K G) (hblock : U.opt.block = false) (hsub : U.sub = 1) (g g₁ g₂ : G) (Z Z' : Analyzer K)
    (base base' : PyM (Base K)) (unit : K) (hbase : ReadFrames E P S (cellFrames F sy (fun _ => L) V s) (cellUniverse F sy (fun _ => L) V s) base unit)
    (hbase' : ReadFrames E P S (cellFrames F sy (fun _ => L) V s') (cellUniverse F sy (fun _ => L) V s') base' unit) (charge : Charge K) (hq : ∀ l, charge = .array l → l.length = atoms.length)
    (h : conductivityAnalyzer sq o g U charge base = .ok (Z, g₁)) (h' : conductivityAnalyzer sq o g U charge base' = .ok (Z', g₂)) :
    Z'.diff.dt = Z.diff.dt ∧ List.Forall₂ (fun y y' => ∀ r, 0 ≤ r → (y ≤ r ^ 2 → y' ≤ (r + (∑ j : Fin atoms.length, |charge.of j|) * (4 * η)) ^ 2) ∧
      (y' ≤ r ^ 2 → y ≤ (r + (∑ j : Fin atoms.length, |charge.of j|) * (4 * η)) ^ 2)) Z.diff.n Z'.diff.n := by
  obtain ⟨d, hd1, hd2⟩ := within_path hs hx hw
  obtain ⟨B, hB, rfl, hm⟩ := conductivity_inv h
  obtain ⟨B', hB', rfl, hm'⟩ := conductivity_inv h'
  obtain ⟨taus, t1, t2⟩ := same_taus hS hP hF hs hd1 hbase hbase' hB hB'
  obtain ⟨n1, e1⟩ := mscd_of_parsed t1 hq hblock hsub hm
  obtain ⟨n2, e2⟩ := mscd_of_parsed t2 hq hblock hsub hm'
  refine ⟨e2.trans e1.symm, ?_⟩
  rw [n1, n2, List.forall₂_map_left_iff, List.forall₂_map_right_iff, List.forall₂_same]
  intro τ hτ r hr
  obtain ⟨h1, h2⟩ := t1.range τ (List.mem_filter.mp (List.mem_of_mem_take hτ)).1
  exact reportedTotal_within (q := charge.of) hη hd2 (x := x) (picks_mem hS).1 (picks_mem hS).2 h1 h2 hr

/-! ## Examples: three decimals of a fractional coordinate, in a cube of edge 10 -/

/-- Paths along x; the first atom ends where 0.9996 is rounded to 1. -/
def exFine : List (List ℚ) := [[8, 9 + 1 / 300, 9996 / 1000, 9 + 2 / 3], [5, 5, 5 + 1 / 700, 5], [1 / 300, 1 / 7, 2 / 7, 0]]

/-- The stored coordinate, rounded to three decimals and put into the cell. -/
def exRounded (i j : ℕ) : V3 ℚ := fun k => Int.fract ((round (exIonPath exFine i j k / 10 * 1000) : ℚ) / 1000)

theorem exFine_within (A : Finset (Fin 3)) : StoredWithin 4 3 (boxOf fun _ => 10) A (1 / 2000) (1 / 200) (fun i j k => exIonPath exFine i j k / 10) exRounded := by
  intro i hi j hj
  refine ⟨fun k => (round (exIonPath exFine i j k / 10 * 1000) : ℚ) / 1000 - exIonPath exFine i j k / 10, fun k => -⌊(round (exIonPath exFine i j k / 10 * 1000) : ℚ) / 1000⌋, fun k => ?_, ?_, fun k => ?_⟩
  · have := abs_sub_round (exIonPath exFine i j k / 10 * 1000)
    rw [abs_le] at this ⊢
    constructor <;> linarith
  · have h0 : ∀ i < 3, ∀ j < 4, ∀ k : Fin 3, k ≠ 0 → (round (exIonPath exFine i j k / 10 * 1000) : ℚ) / 1000 - exIonPath exFine i j k / 10 = 0 := by
      intro i _ j _ k hk
      simp [exIonPath, hk]
    have := abs_sub_round (exIonPath exFine i j 0 / 10 * 1000)
    rw [abs_le] at this
    calc lengthSq A _ ≤ lengthSq Finset.univ (cart (boxOf fun _ => 10) fun k => (round (exIonPath exFine i j k / 10 * 1000) : ℚ) / 1000 - exIonPath exFine i j k / 10) :=
          Finset.sum_le_sum_of_subset_of_nonneg (Finset.subset_univ _) fun _ _ _ => sq_nonneg _
      _ ≤ (1 / 200) ^ 2 := by
          unfold lengthSq
          simp only [cart_boxOf, Fin.sum_univ_three]
          rw [h0 i hi j hj 1 (by decide), h0 i hi j hj 2 (by decide)]
          nlinarith
  · simp only [exRounded, Int.fract]
    push_cast
    ring

theorem exFine_steps : StepsWithin 4 3 (boxOf fun _ => 10) (1 / 2000) (exIonPath exFine) := by
  intro i hi j hj
  refine ⟨fun k => (exIonPath exFine i (j + 1) k - exIonPath exFine i j k) / 10, ?_, fun l => by rw [cart_boxOf]; ring⟩
  have : ∀ i < 3, ∀ j < 3, ∀ k, |(exIonPath exFine i (j + 1) k - exIonPath exFine i j k) / 10| + 2 * (1 / 2000) < 1 / 2 := by decide +kernel
  exact this i hi j (by omega)

/-- What is read from coordinates stored like this. -/
def exFineBase (s : ℕ → ℕ → V3 ℚ) : PyM (Base ℚ) :=
  fromAse exNum exParams exIons 1 none (.one (cellFrames 4 ["Na", "O", "Cl"] (fun _ => boxOf fun _ => 10) (fun _ => 1000) s))

/-- `C139_msd`: the exact coordinates give the MSDs `y`, the rounded ones `y'`. -/
example : ∃ Z Z', diffusionAnalyzer id (exOracle ℚ) () exUnc (exFineBase fun i j k => exIonPath exFine i j k / 10) = .ok (Z, ()) ∧
    diffusionAnalyzer id (exOracle ℚ) () exUnc (exFineBase exRounded) = .ok (Z', ()) ∧ Z'.diff.n ≠ Z.diff.n ∧ exRounded 0 2 0 = 0 ∧
    Z'.diff.dt = Z.diff.dt ∧ List.Forall₂ (fun y y' => ∀ r, 0 ≤ r → (y ≤ r ^ 2 → y' ≤ (r + 4 * (1 / 200)) ^ 2) ∧ (y' ≤ r ^ 2 → y ≤ (r + 4 * (1 / 200)) ^ 2) ∧
      ([1] = [] → (y ≤ r ^ 2 → y' ≤ (r + 2 * (1 / 200)) ^ 2) ∧ (y' ≤ r ^ 2 → y ≤ (r + 2 * (1 / 200)) ^ 2))) Z.diff.n Z'.diff.n := by
  obtain ⟨⟨Z, g⟩, h⟩ := ok_of_isSome (x := diffusionAnalyzer id (exOracle ℚ) () exUnc (exFineBase fun i j k => exIonPath exFine i j k / 10)) (by decide +kernel)
  obtain ⟨⟨Z', g'⟩, h'⟩ := ok_of_isSome (x := diffusionAnalyzer id (exOracle ℚ) () exUnc (exFineBase exRounded)) (by decide +kernel)
  have hne : (diffusionAnalyzer id (exOracle ℚ) () exUnc (exFineBase exRounded)).toOption.map (fun z => z.1.diff.n) ≠
      (diffusionAnalyzer id (exOracle ℚ) () exUnc (exFineBase fun i j k => exIonPath exFine i j k / 10)).toOption.map fun z => z.1.diff.n := by decide +kernel
  rw [h, h'] at hne
  exact ⟨Z, Z', h, h', fun he => hne (congrArg some he), by decide +kernel, C139_msd exNum exParams exIons ["Na", "O", "Cl"] [0, 2] [1] exIons_picks exGrid 4 (by decide) _ _ _ _ (exIonPath exFine)
    (exIon_stored (by unfold HalfCell; decide +kernel)) (1 / 2000) (1 / 200) (by norm_num) exFine_steps exUnc (exFine_within _) id (exOracle ℚ) rfl rfl () () () Z Z' _ _ 1 (.inl ⟨rfl, rfl⟩) (.inl ⟨rfl, rfl⟩)
    h h'⟩

/-- `C139_mstd`, `C139_mscd`: the same. -/
example : ∃ Z Z', jumpAnalyzer id (exOracle ℚ) () exUnc (exFineBase fun i j k => exIonPath exFine i j k / 10) = .ok (Z, ()) ∧
    jumpAnalyzer id (exOracle ℚ) () exUnc (exFineBase exRounded) = .ok (Z', ()) ∧ Z'.diff.n ≠ Z.diff.n ∧
    Z'.diff.dt = Z.diff.dt ∧ List.Forall₂ (fun y y' => ∀ r, 0 ≤ r → (y ≤ r ^ 2 → y' ≤ (r + (([0, 2] : List ℕ).length : ℚ) * (4 * (1 / 200))) ^ 2) ∧
      (y' ≤ r ^ 2 → y ≤ (r + (([0, 2] : List ℕ).length : ℚ) * (4 * (1 / 200))) ^ 2)) Z.diff.n Z'.diff.n := by
  obtain ⟨⟨Z, g⟩, h⟩ := ok_of_isSome (x := jumpAnalyzer id (exOracle ℚ) () exUnc (exFineBase fun i j k => exIonPath exFine i j k / 10)) (by decide +kernel)
  obtain ⟨⟨Z', g'⟩, h'⟩ := ok_of_isSome (x := jumpAnalyzer id (exOracle ℚ) () exUnc (exFineBase exRounded)) (by decide +kernel)
  have hne : (jumpAnalyzer id (exOracle ℚ) () exUnc (exFineBase exRounded)).toOption.map (fun z => z.1.diff.n) ≠
      (jumpAnalyzer id (exOracle ℚ) () exUnc (exFineBase fun i j k => exIonPath exFine i j k / 10)).toOption.map fun z => z.1.diff.n := by decide +kernel
  rw [h, h'] at hne
  exact ⟨Z, Z', h, h', fun he => hne (congrArg some he), C139_mstd exNum exParams exIons ["Na", "O", "Cl"] [0, 2] [1] exIons_picks exGrid 4 (by decide) _ _ _ _ (exIonPath exFine)
    (exIon_stored (by unfold HalfCell; decide +kernel)) (1 / 2000) (1 / 200) (by norm_num) exFine_steps exUnc (exFine_within _) id (exOracle ℚ) rfl rfl () () () Z Z' _ _ 1 (.inl ⟨rfl, rfl⟩) (.inl ⟨rfl, rfl⟩)
    h h'⟩

example : ∃ Z Z', conductivityAnalyzer id (exOracle ℚ) () exUnc (.array [1, -2]) (exFineBase fun i j k => exIonPath exFine i j k / 10) = .ok (Z, ()) ∧
    conductivityAnalyzer id (exOracle ℚ) () exUnc (.array [1, -2]) (exFineBase exRounded) = .ok (Z', ()) ∧ Z'.diff.n ≠ Z.diff.n ∧
    Z'.diff.dt = Z.diff.dt ∧ List.Forall₂ (fun y y' => ∀ r, 0 ≤ r → (y ≤ r ^ 2 → y' ≤ (r + (∑ j : Fin ([0, 2] : List ℕ).length, |(Charge.array [1, -2]).of j|) * (4 * (1 / 200))) ^ 2) ∧
      (y' ≤ r ^ 2 → y ≤ (r + (∑ j : Fin ([0, 2] : List ℕ).length, |(Charge.array [1, -2]).of j|) * (4 * (1 / 200))) ^ 2)) Z.diff.n Z'.diff.n := by
  obtain ⟨⟨Z, g⟩, h⟩ := ok_of_isSome (x := conductivityAnalyzer id (exOracle ℚ) () exUnc (.array [1, -2]) (exFineBase fun i j k => exIonPath exFine i j k / 10)) (by decide +kernel)
  obtain ⟨⟨Z', g'⟩, h'⟩ := ok_of_isSome (x := conductivityAnalyzer id (exOracle ℚ) () exUnc (.array [1, -2]) (exFineBase exRounded)) (by decide +kernel)
  have hne : (conductivityAnalyzer id (exOracle ℚ) () exUnc (.array [1, -2]) (exFineBase exRounded)).toOption.map (fun z => z.1.diff.n) ≠
      (conductivityAnalyzer id (exOracle ℚ) () exUnc (.array [1, -2]) (exFineBase fun i j k => exIonPath exFine i j k / 10)).toOption.map fun z => z.1.diff.n := by decide +kernel
  rw [h, h'] at hne
  exact ⟨Z, Z', h, h', fun he => hne (congrArg some he), C139_mscd exNum exParams exIons ["Na", "O", "Cl"] [0, 2] [1] exIons_picks exGrid 4 (by decide) _ _ _ _ (exIonPath exFine)
    (exIon_stored (by unfold HalfCell; decide +kernel)) (1 / 2000) (1 / 200) (by norm_num) exFine_steps exUnc (exFine_within _) id (exOracle ℚ) rfl rfl () () () Z Z' _ _ 1 (.inl ⟨rfl, rfl⟩) (.inl ⟨rfl, rfl⟩)
    (.array [1, -2]) (fun l h => by cases h; rfl) h h'⟩

end Kinisi
