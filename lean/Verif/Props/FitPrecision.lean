import Verif.Props.Chords
import Verif.Props.FilePrecision
import Verif.Props.Collective

/-!
# C148: the precision of the stored coordinates and the fitted coefficient

`C139` bounds the error of the curve, `C147_close` what the errors of a curve do to the gradient.
-/

set_option linter.unusedSectionVars false
set_option linter.unusedVariables false

namespace Kinisi
open Spec
variable {K : Type} [Field K] [LinearOrder K] [IsStrictOrderedRing K] [FloorRing K] {G : Type}

/-- Squares come as close to a number as one likes. -/
theorem square_above {x ρ ε : K} (hx : 0 ≤ x) (hρ : 0 ≤ ρ) (hxρ : x ≤ ρ ^ 2) (hε : 0 < ε) : ∃ s, 0 ≤ s ∧ s ≤ ρ ∧ x ≤ s ^ 2 ∧ s ^ 2 ≤ x + ε := by
  obtain ⟨n, hn⟩ := exists_nat_gt (2 * ρ ^ 2 / ε)
  have hn0 : (0 : K) < n := lt_of_le_of_lt (by positivity) hn
  have hP : ∃ k : ℕ, x ≤ ((k : K) * (ρ / n)) ^ 2 := ⟨n, by rw [mul_div_cancel₀ _ hn0.ne']; exact hxρ⟩
  classical
  obtain ⟨k, hk, hmin⟩ : ∃ k : ℕ, x ≤ ((k : K) * (ρ / n)) ^ 2 ∧ ∀ j < k, ¬ x ≤ ((j : K) * (ρ / n)) ^ 2 := ⟨Nat.find hP, Nat.find_spec hP, fun j hj => Nat.find_min hP hj⟩
  have hkn : k ≤ n := by
    by_contra hc
    exact hmin n (by omega) (by rw [mul_div_cancel₀ _ hn0.ne']; exact hxρ)
  have hh : 0 ≤ ρ / n := by positivity
  refine ⟨(k : K) * (ρ / n), by positivity, ?_, hk, ?_⟩
  · calc (k : K) * (ρ / n) ≤ n * (ρ / n) := mul_le_mul_of_nonneg_right (by exact_mod_cast hkn) hh
      _ = ρ := mul_div_cancel₀ _ hn0.ne'
  · cases k with
    | zero => simp; linarith
    | succ k =>
      have h1 := not_le.1 (hmin k (by omega))
      have h2 : ((k : K) + 1) * (ρ / n) ≤ ρ := by
        calc ((k : K) + 1) * (ρ / n) ≤ n * (ρ / n) := mul_le_mul_of_nonneg_right (by exact_mod_cast hkn) hh
          _ = ρ := mul_div_cancel₀ _ hn0.ne'
      have h3 : 2 * (ρ * (ρ / n)) < ε := by
        rw [div_lt_iff₀ hε] at hn
        rw [show 2 * (ρ * (ρ / n)) = 2 * ρ ^ 2 / n by ring, div_lt_iff₀ hn0]
        linarith
      push_cast
      have h4 : (((k : K) + 1) * (ρ / n)) ^ 2 ≤ ((k : K) * (ρ / n)) ^ 2 + 2 * (((k : K) + 1) * (ρ / n)) * (ρ / n) := by nlinarith [sq_nonneg (ρ / n)]
      have h5 := mul_le_mul_of_nonneg_right h2 hh
      linarith

/-- Numbers whose roots differ by at most `e`. -/
theorem square_gap {y y' ρ e : K} (hρ : 0 ≤ ρ) (he : 0 ≤ e) (h0 : 0 ≤ y) (h0' : 0 ≤ y') (hy : y ≤ ρ ^ 2) (h : ∀ r, 0 ≤ r → (y ≤ r ^ 2 → y' ≤ (r + e) ^ 2) ∧ (y' ≤ r ^ 2 → y ≤ (r + e) ^ 2)) :
    |y' - y| ≤ e * (2 * ρ + e) := by
  have hpos : 0 ≤ e * (2 * ρ + e) := by positivity
  rw [abs_le]
  constructor
  · rcases le_or_gt y' (ρ ^ 2) with h1 | h1
    · suffices y ≤ y' + e * (2 * ρ + e) by linarith
      refine le_of_forall_pos_le_add fun ε hε => ?_
      obtain ⟨s, s0, s1, s2, s3⟩ := square_above h0' hρ h1 hε
      have := (h s s0).2 s2
      nlinarith [mul_le_mul_of_nonneg_left s1 he]
    · linarith
  · suffices y' ≤ y + e * (2 * ρ + e) by linarith
    refine le_of_forall_pos_le_add fun ε hε => ?_
    obtain ⟨s, s0, s1, s2, s3⟩ := square_above h0 hρ hy hε
    have := (h s s0).1 s2
    nlinarith [mul_le_mul_of_nonneg_left s1 he]

/-- Two curves whose roots differ by at most `e`, over times that are multiples of `u`. -/
theorem close_fits {b b' : Boot K} (hb : InverseCounts b ∧ Aligned b) (hb' : InverseCounts b' ∧ Aligned b') (hdt : b'.dt = b.dt) {l : List ℕ} (hl : l.Pairwise (· < ·)) {u : K} (hu : 0 < u)
    (hd : b.dt = l.map fun τ : ℕ => (τ : K) * u) {e : K} (he : 0 ≤ e)
    (hF : List.Forall₂ (fun y y' => ∀ r, 0 ≤ r → (y ≤ r ^ 2 → y' ≤ (r + e) ^ 2) ∧ (y' ≤ r ^ 2 → y ≤ (r + e) ^ 2)) b.n b'.n) (h0 : ∀ y ∈ b.n, 0 ≤ y) (h0' : ∀ y ∈ b'.n, 0 ≤ y) {r : ℕ}
    (hr : r + 2 ≤ b.n.length) {ρ Q : K} (hρ : 0 ≤ ρ) (hy : ∀ i, r ≤ i → i < b.n.length → b.n.getD i 0 ≤ (ρ * (b.dt.getD i 0 / b.dt.getD r 0)) ^ 2)
    (hQ : ∀ i, r ≤ i → i + 1 < b.n.length → b.dt.getD i 0 ^ 2 + b.dt.getD i 0 * b.dt.getD (i + 1) 0 + b.dt.getD (i + 1) 0 ^ 2 ≤ Q * (b.dt.getD i 0 * b.dt.getD (i + 1) 0))
    {g c g' c' : K} (h : ModelFit b r g c) (h' : ModelFit b' r g' c') : |g' - g| ≤ (1 / b.dt.getD r 0 + 2 * Q / u) * (e * (2 * ρ + e)) := by
  have hlen : b.dt.length = b.n.length := hb.2.1
  have hll : l.length = b.n.length := by rw [← hlen, hd, List.length_map]
  have hget : ∀ i < b.n.length, b.dt.getD i 0 = ((l.getD i 0 : ℕ) : K) * u := by
    intro i hi
    rw [hd, List.getD_eq_getElem?_getD, List.getElem?_map, List.getElem?_eq_getElem (by omega), List.getD_eq_getElem?_getD, List.getElem?_eq_getElem (by omega)]
    rfl
  have hpos : ∀ i < b.n.length, 0 < b.dt.getD i 0 := fun i hi => hb.1.2.1 _ (by rw [List.getD_eq_getElem?_getD, List.getElem?_eq_getElem (by omega)]; exact List.getElem_mem _)
  have hasc : ∀ i j, i < j → j < b.n.length → b.dt.getD i 0 < b.dt.getD j 0 := by
    intro i j hij hj
    have := List.pairwise_iff_getElem.1 hb.2.2.2 i j (by omega) (by omega) hij
    rw [List.getD_eq_getElem?_getD, List.getElem?_eq_getElem (by omega), List.getD_eq_getElem?_getD, List.getElem?_eq_getElem (by omega)]
    exact this
  have ht := hpos r (by omega)
  obtain ⟨-, q⟩ := C147_close b b' hb hb' hdt r hr u Q (e * (2 * ρ + e)) hu (fun i _ hi => by
    rw [hget i (by omega), hget (i + 1) hi, ← sub_mul]
    have h1 := hasc i (i + 1) (by omega) hi
    rw [hget i (by omega), hget (i + 1) hi] at h1
    have h2 : ((l.getD i 0 : ℕ) : K) < ((l.getD (i + 1) 0 : ℕ) : K) := lt_of_mul_lt_mul_right h1 hu.le
    have h3 : l.getD i 0 + 1 ≤ l.getD (i + 1) 0 := by exact_mod_cast h2
    have h4 : ((l.getD i 0 : ℕ) : K) + 1 ≤ ((l.getD (i + 1) 0 : ℕ) : K) := by exact_mod_cast h3
    nlinarith) hQ g c g' c' h h'
  refine (q fun i hri hi => ?_).trans (le_of_eq (by ring))
  have hx : 1 ≤ b.dt.getD i 0 / b.dt.getD r 0 := by
    rw [le_div_iff₀ ht, one_mul]
    rcases hri.lt_or_eq with hlt | rfl
    · exact (hasc r i hlt hi).le
    · exact le_rfl
  have hl' := hF.length_eq
  have hg1 : b.n.getD i 0 = b.n[i] := by rw [List.getD_eq_getElem?_getD, List.getElem?_eq_getElem hi]; rfl
  have hg2 : b'.n.getD i 0 = b'.n[i]'(by omega) := by rw [List.getD_eq_getElem?_getD, List.getElem?_eq_getElem (by omega)]; rfl
  have hR := (List.forall₂_iff_get.1 hF).2 i hi (by omega)
  simp only [List.get_eq_getElem] at hR
  have hyi := hy i hri hi
  rw [hg1] at hyi
  rw [hg1, hg2]
  refine (square_gap (by positivity) he (h0 _ (List.getElem_mem _)) (h0' _ (List.getElem_mem _)) hyi hR).trans ?_
  rw [mul_assoc]
  refine mul_le_mul_of_nonneg_left ?_ he
  nlinarith [mul_le_mul_of_nonneg_left hx he]

/-- The times of a run with default intervals, with the range of the intervals. -/
theorem run_grid_range {E : Num K} {P : Params K} {S : Select K} {sy : List String} {atoms fw : List ℕ} (hS : Picks S sy atoms fw) (hP : DefaultGrid E P) {F : ℕ} (hF : 2 ≤ F) {C : ℕ → M3 K} {V : ℕ → K} {s x : ℕ → ℕ → V3 K}
    (hs : StoredIn F sy.length C s x) {base : PyM (Base K)} {unit : K} (hbase : ReadFrames E P S (cellFrames F sy C V s) (cellUniverse F sy C V s) base unit) {sq : K → K} {o : Oracle K G} {U : UncParams K} (hsub : U.sub = 1)
    {charge : Charge K} {g₁ g₂ : G} {Z : Analyzer K} (h : diffusionAnalyzer sq o g₁ U base = .ok (Z, g₂) ∨ jumpAnalyzer sq o g₁ U base = .ok (Z, g₂) ∨ conductivityAnalyzer sq o g₁ U charge base = .ok (Z, g₂)) :
    (InverseCounts Z.diff ∧ Aligned Z.diff) ∧ 0 < P.stepSkip.val * P.timeStep.val / unit ∧
      ∃ l : List ℕ, l.Pairwise (· < ·) ∧ (∀ τ ∈ l, 1 ≤ τ ∧ τ ≤ F) ∧ Z.diff.dt = l.map fun τ : ℕ => (τ : K) * (P.stepSkip.val * P.timeStep.val / unit) := by
  have hu : 0 < unit := by rcases hbase with ⟨-, rfl⟩ | ⟨-, rfl⟩ | ⟨-, rfl⟩ <;> norm_num
  have hu' : 0 < P.stepSkip.val * P.timeStep.val / unit := div_pos hP.2.1 hu
  obtain ⟨B, hB, hd⟩ : ∃ B, base = .ok B ∧ Z.deltaT = B.deltaT := by
    rcases h with h | h | h
    · obtain ⟨B, hB, e, -⟩ := diffusion_inv h; exact ⟨B, hB, by rw [e]⟩
    · obtain ⟨B, hB, e, -⟩ := jump_inv h; exact ⟨B, hB, by rw [e]⟩
    · obtain ⟨B, hB, e, -⟩ := conductivity_inv h; exact ⟨B, hB, by rw [e]⟩
  obtain ⟨taus, t1, -⟩ := same_taus hS hP hF hs hs hbase hbase hB hB
  have e : Z.deltaT = taus.map fun τ : ℕ => (τ : K) * (P.stepSkip.val * P.timeStep.val / unit) := by
    rw [hd, t1.deltaT]
    refine List.map_congr_left fun τ _ => ?_
    ring
  obtain ⟨r1, q, r2⟩ := runs_aligned hP.1 hP.2.2.2.2.2 hP.2.1 hbase hsub h (by
      intro t ht
      rw [e] at ht
      obtain ⟨τ, hτ, rfl⟩ := List.mem_map.1 ht
      have : (0 : K) < τ := by exact_mod_cast (t1.range τ hτ).1
      positivity) (by
      rw [e]
      exact t1.sorted.map _ fun σ τ h => mul_lt_mul_of_pos_right (by exact_mod_cast h) hu')
  refine ⟨r1, hu', taus.take q, t1.sorted.sublist (List.take_sublist _ _), fun τ hτ => t1.range τ (List.mem_of_mem_take hτ), ?_⟩
  rw [r2, e, List.map_take]

/-- The times of a run with default intervals. -/
theorem run_grid {E : Num K} {P : Params K} {S : Select K} {sy : List String} {atoms fw : List ℕ} (hS : Picks S sy atoms fw) (hP : DefaultGrid E P) {F : ℕ} (hF : 2 ≤ F) {C : ℕ → M3 K} {V : ℕ → K} {s x : ℕ → ℕ → V3 K}
    (hs : StoredIn F sy.length C s x) {base : PyM (Base K)} {unit : K} (hbase : ReadFrames E P S (cellFrames F sy C V s) (cellUniverse F sy C V s) base unit) {sq : K → K} {o : Oracle K G} {U : UncParams K} (hsub : U.sub = 1)
    {charge : Charge K} {g₁ g₂ : G} {Z : Analyzer K} (h : diffusionAnalyzer sq o g₁ U base = .ok (Z, g₂) ∨ jumpAnalyzer sq o g₁ U base = .ok (Z, g₂) ∨ conductivityAnalyzer sq o g₁ U charge base = .ok (Z, g₂)) :
    (InverseCounts Z.diff ∧ Aligned Z.diff) ∧ 0 < P.stepSkip.val * P.timeStep.val / unit ∧
      ∃ l : List ℕ, l.Pairwise (· < ·) ∧ Z.diff.dt = l.map fun τ : ℕ => (τ : K) * (P.stepSkip.val * P.timeStep.val / unit) := by
  obtain ⟨a1, a2, l, a3, -, a4⟩ := run_grid_range hS hP hF hs hbase hsub h
  exact ⟨a1, a2, l, a3, a4⟩

/-- **C148, diffusion coefficient.** The same path, read from files of which one holds each coordinate off by up to a distance of `η`, the steps keeping `2 ε` from half the cell (C139).  If the root mean squared displacement is at most `ρ`
at the first fitted time and grows no faster than the time, then the gradients of the fits with the random walk model differ by at most `(1 / t + 2 Q / u) 4 η (2 ρ + 4 η)`, where `t` is the first fitted time, `u` the time between frames and
`Q` is 7/2 if no interval is more than twice the one before: however long the trajectory is.  Without a framework `2 η` replaces `4 η`. -/
theorem C148_diffusion (E : Num K) (P : Params K) (S : Select K) (sy : List String) (atoms fw : List ℕ) (hS : Picks S sy atoms fw) (hP : DefaultGrid E P) (F : ℕ) (hF : 2 ≤ F) (L : M3 K) (V : ℕ → K)
    (s s' x : ℕ → ℕ → V3 K) (hs : StoredIn F sy.length (fun _ => L) s x) (ε η : K) (hη : 0 ≤ η) (hx : StepsWithin F sy.length L ε x) (U : UncParams K)
    (hw : StoredWithin F sy.length L (axesOf U.dimension) ε η s s') (sq : K → K) (o : Oracle K G) (hblock : U.opt.block = false) (hsub : U.sub = 1) (γ γ₁ γ₂ : G) (Z Z' : Analyzer K)
    (base base' : PyM (Base K)) (unit : K) (hbase : ReadFrames E P S (cellFrames F sy (fun _ => L) V s) (cellUniverse F sy (fun _ => L) V s) base unit)
    (hbase' : ReadFrames E P S (cellFrames F sy (fun _ => L) V s') (cellUniverse F sy (fun _ => L) V s') base' unit) (h : diffusionAnalyzer sq o γ U base = .ok (Z, γ₁))
    (h' : diffusionAnalyzer sq o γ U base' = .ok (Z', γ₂)) (r : ℕ) (hr : r + 2 ≤ Z.diff.n.length) (ρ Q : K) (hρ : 0 ≤ ρ)
    (hy : ∀ i, r ≤ i → i < Z.diff.n.length → Z.diff.n.getD i 0 ≤ (ρ * (Z.diff.dt.getD i 0 / Z.diff.dt.getD r 0)) ^ 2)
    (hQ : ∀ i, r ≤ i → i + 1 < Z.diff.n.length → Z.diff.dt.getD i 0 ^ 2 + Z.diff.dt.getD i 0 * Z.diff.dt.getD (i + 1) 0 + Z.diff.dt.getD (i + 1) 0 ^ 2 ≤ Q * (Z.diff.dt.getD i 0 * Z.diff.dt.getD (i + 1) 0))
    (g c g' c' : K) (f : ModelFit Z.diff r g c) (f' : ModelFit Z'.diff r g' c') :
    |g' - g| ≤ (1 / Z.diff.dt.getD r 0 + 2 * Q / (P.stepSkip.val * P.timeStep.val / unit)) * (4 * η * (2 * ρ + 4 * η)) ∧
      (fw = [] → |g' - g| ≤ (1 / Z.diff.dt.getD r 0 + 2 * Q / (P.stepSkip.val * P.timeStep.val / unit)) * (2 * η * (2 * ρ + 2 * η))) := by
  obtain ⟨hdt, hF2⟩ := C139_msd E P S sy atoms fw hS hP F hF L V s s' x hs ε η hη hx U hw sq o hblock hsub γ γ₁ γ₂ Z Z' base base' unit hbase hbase' h h'
  obtain ⟨d, hd1, -⟩ := within_path hs hx hw
  obtain ⟨k, hu, l, hl, hd⟩ := run_grid (charge := .scalar 1) hS hP hF hs hbase hsub (.inl h)
  obtain ⟨k', -⟩ := run_grid (charge := .scalar 1) hS hP hF hd1 hbase' hsub (.inl h')
  have nn : ∀ {γ₁ : G} {Z : Analyzer K} {base : PyM (Base K)}, diffusionAnalyzer sq o γ U base = .ok (Z, γ₁) → ∀ y ∈ Z.diff.n, 0 ≤ y := fun h => by
    obtain ⟨B, -, rfl, m⟩ := diffusion_inv h
    exact C28_nonneg _ _ _ hblock _ _ _ _ _ _ _ _ m
  refine ⟨close_fits k k' hdt hl hu hd (by positivity) (hF2.imp fun y y' q r hr => ⟨(q r hr).1, (q r hr).2.1⟩) (nn h) (nn h') hr hρ hy hQ f f', fun hfw => ?_⟩
  exact close_fits k k' hdt hl hu hd (by positivity) (hF2.imp fun y y' q r hr => (q r hr).2.2 hfw) (nn h) (nn h') hr hρ hy hQ f f'

/-- **C148, jump diffusion.** The same for the total displacement of `N` atoms, with `4 N η`. -/
theorem C148_jump (E : Num K) (P : Params K) (S : Select K) (sy : List String) (atoms fw : List ℕ) (hS : Picks S sy atoms fw) (hP : DefaultGrid E P) (F : ℕ) (hF : 2 ≤ F) (L : M3 K) (V : ℕ → K)
    (s s' x : ℕ → ℕ → V3 K) (hs : StoredIn F sy.length (fun _ => L) s x) (ε η : K) (hη : 0 ≤ η) (hx : StepsWithin F sy.length L ε x) (U : UncParams K)
    (hw : StoredWithin F sy.length L (axesOf U.dimension) ε η s s') (sq : K → K) (o : Oracle K G) (hblock : U.opt.block = false) (hsub : U.sub = 1) (γ γ₁ γ₂ : G) (Z Z' : Analyzer K)
    (base base' : PyM (Base K)) (unit : K) (hbase : ReadFrames E P S (cellFrames F sy (fun _ => L) V s) (cellUniverse F sy (fun _ => L) V s) base unit)
    (hbase' : ReadFrames E P S (cellFrames F sy (fun _ => L) V s') (cellUniverse F sy (fun _ => L) V s') base' unit) (h : jumpAnalyzer sq o γ U base = .ok (Z, γ₁))
    (h' : jumpAnalyzer sq o γ U base' = .ok (Z', γ₂)) (r : ℕ) (hr : r + 2 ≤ Z.diff.n.length) (ρ Q : K) (hρ : 0 ≤ ρ)
    (hy : ∀ i, r ≤ i → i < Z.diff.n.length → Z.diff.n.getD i 0 ≤ (ρ * (Z.diff.dt.getD i 0 / Z.diff.dt.getD r 0)) ^ 2)
    (hQ : ∀ i, r ≤ i → i + 1 < Z.diff.n.length → Z.diff.dt.getD i 0 ^ 2 + Z.diff.dt.getD i 0 * Z.diff.dt.getD (i + 1) 0 + Z.diff.dt.getD (i + 1) 0 ^ 2 ≤ Q * (Z.diff.dt.getD i 0 * Z.diff.dt.getD (i + 1) 0))
    (g c g' c' : K) (f : ModelFit Z.diff r g c) (f' : ModelFit Z'.diff r g' c') :
    |g' - g| ≤ (1 / Z.diff.dt.getD r 0 + 2 * Q / (P.stepSkip.val * P.timeStep.val / unit)) * ((atoms.length : K) * (4 * η) * (2 * ρ + (atoms.length : K) * (4 * η))) := by
  obtain ⟨hdt, hF2⟩ := C139_mstd E P S sy atoms fw hS hP F hF L V s s' x hs ε η hη hx U hw sq o hblock hsub γ γ₁ γ₂ Z Z' base base' unit hbase hbase' h h'
  obtain ⟨d, hd1, -⟩ := within_path hs hx hw
  obtain ⟨k, hu, l, hl, hd⟩ := run_grid (charge := .scalar 1) hS hP hF hs hbase hsub (.inr (.inl h))
  obtain ⟨k', -⟩ := run_grid (charge := .scalar 1) hS hP hF hd1 hbase' hsub (.inr (.inl h'))
  have nn : ∀ {γ₁ : G} {Z : Analyzer K} {s x : ℕ → ℕ → V3 K} {base : PyM (Base K)}, StoredIn F sy.length (fun _ => L) s x →
      ReadFrames E P S (cellFrames F sy (fun _ => L) V s) (cellUniverse F sy (fun _ => L) V s) base unit → jumpAnalyzer sq o γ U base = .ok (Z, γ₁) → ∀ y ∈ Z.diff.n, 0 ≤ y := fun hs hb h y hy => by
    obtain ⟨B, hB, rfl, m⟩ := jump_inv h
    obtain ⟨taus, t1, -⟩ := same_taus hS hP hF hs hs hb hb hB hB
    rw [(mstd_of_parsed t1 hblock hsub m).1] at hy
    obtain ⟨τ, -, rfl⟩ := List.mem_map.1 hy
    exact reportedTotal_nonneg _ _ _ _ _ _ _ _
  exact close_fits k k' hdt hl hu hd (by positivity) hF2 (nn hs hbase h) (nn hd1 hbase' h') hr hρ hy hQ f f'

/-- **C148, conductivity.** The same for the charge displacement, with `4 η` times the sum of the absolute charges. -/
theorem C148_conductivity (E : Num K) (P : Params K) (S : Select K) (sy : List String) (atoms fw : List ℕ) (hS : Picks S sy atoms fw) (hP : DefaultGrid E P) (F : ℕ) (hF : 2 ≤ F) (L : M3 K) (V : ℕ → K)
    (s s' x : ℕ → ℕ → V3 K) (hs : StoredIn F sy.length (fun _ => L) s x) (ε η : K) (hη : 0 ≤ η) (hx : StepsWithin F sy.length L ε x) (U : UncParams K)
    (hw : StoredWithin F sy.length L Finset.univ ε η s s') (sq : K → K) (o : Oracle K G) (hblock : U.opt.block = false) (hsub : U.sub = 1) (γ γ₁ γ₂ : G) (Z Z' : Analyzer K)
    (base base' : PyM (Base K)) (unit : K) (hbase : ReadFrames E P S (cellFrames F sy (fun _ => L) V s) (cellUniverse F sy (fun _ => L) V s) base unit)
    (hbase' : ReadFrames E P S (cellFrames F sy (fun _ => L) V s') (cellUniverse F sy (fun _ => L) V s') base' unit) (charge : Charge K)
    (hq : ∀ l, charge = .array l → l.length = atoms.length) (h : conductivityAnalyzer sq o γ U charge base = .ok (Z, γ₁))
    (h' : conductivityAnalyzer sq o γ U charge base' = .ok (Z', γ₂)) (r : ℕ) (hr : r + 2 ≤ Z.diff.n.length) (ρ Q : K) (hρ : 0 ≤ ρ)
    (hy : ∀ i, r ≤ i → i < Z.diff.n.length → Z.diff.n.getD i 0 ≤ (ρ * (Z.diff.dt.getD i 0 / Z.diff.dt.getD r 0)) ^ 2)
    (hQ : ∀ i, r ≤ i → i + 1 < Z.diff.n.length → Z.diff.dt.getD i 0 ^ 2 + Z.diff.dt.getD i 0 * Z.diff.dt.getD (i + 1) 0 + Z.diff.dt.getD (i + 1) 0 ^ 2 ≤ Q * (Z.diff.dt.getD i 0 * Z.diff.dt.getD (i + 1) 0))
    (g c g' c' : K) (f : ModelFit Z.diff r g c) (f' : ModelFit Z'.diff r g' c') :
    |g' - g| ≤ (1 / Z.diff.dt.getD r 0 + 2 * Q / (P.stepSkip.val * P.timeStep.val / unit)) *
      ((∑ j : Fin atoms.length, |charge.of j|) * (4 * η) * (2 * ρ + (∑ j : Fin atoms.length, |charge.of j|) * (4 * η))) := by
  obtain ⟨hdt, hF2⟩ := C139_mscd E P S sy atoms fw hS hP F hF L V s s' x hs ε η hη hx U hw sq o hblock hsub γ γ₁ γ₂ Z Z' base base' unit hbase hbase' charge hq h h'
  obtain ⟨d, hd1, -⟩ := within_path hs hx hw
  obtain ⟨k, hu, l, hl, hd⟩ := run_grid (charge := charge) hS hP hF hs hbase hsub (.inr (.inr h))
  obtain ⟨k', -⟩ := run_grid (charge := charge) hS hP hF hd1 hbase' hsub (.inr (.inr h'))
  have nn : ∀ {γ₁ : G} {Z : Analyzer K} {s x : ℕ → ℕ → V3 K} {base : PyM (Base K)}, StoredIn F sy.length (fun _ => L) s x →
      ReadFrames E P S (cellFrames F sy (fun _ => L) V s) (cellUniverse F sy (fun _ => L) V s) base unit → conductivityAnalyzer sq o γ U charge base = .ok (Z, γ₁) → ∀ y ∈ Z.diff.n, 0 ≤ y := fun hs hb h y hy => by
    obtain ⟨B, hB, rfl, m⟩ := conductivity_inv h
    obtain ⟨taus, t1, -⟩ := same_taus hS hP hF hs hs hb hb hB hB
    rw [(mscd_of_parsed t1 hq hblock hsub m).1] at hy
    obtain ⟨τ, -, rfl⟩ := List.mem_map.1 hy
    exact reportedTotal_nonneg _ _ _ _ _ _ _ _
  exact close_fits k k' hdt hl hu hd (mul_nonneg (Finset.sum_nonneg fun j _ => abs_nonneg _) (by positivity)) hF2 (nn hs hbase h) (nn hd1 hbase' h') hr hρ hy hQ f f'

/-! ## Examples -/

theorem exRun_values {x : PyM (Analyzer ℚ × Unit)} {y n t : List ℚ} (h : (x.toOption.map fun z => (z.1.diff.n, z.1.diff.nO, z.1.diff.dt)) = some (y, n, t)) :
    ∃ Z, x = .ok (Z, ()) ∧ Z.diff.n = y ∧ Z.diff.nO = n ∧ Z.diff.dt = t := by
  match x, h with
  | .ok (Z, ()), h =>
    simp only [Except.toOption, Option.map_some, Option.some.injEq, Prod.mk.injEq] at h
    exact ⟨Z, rfl, h.1, h.2.1, h.2.2⟩
  | .error _, h => simp [Except.toOption] at h

/-- The weights for the times 6, 12, 18, 24 with 8, 4, 8/3, 2 observations. -/
theorem exFour {b : Boot ℚ} {y : List ℚ} (g c : ℚ) (h1 : b.n = y) (h3 : b.nO = [8, 4, 8 / 3, 2]) (h4 : b.dt = [6, 12, 18, 24]) (hy : y.length = 4) (hg : 0 ≤ g)
    (hN : form !![1 / 108, -1 / 432, 0, 0; -1 / 432, 1 / 432, -1 / 1296, 0; 0, -1 / 1296, 1 / 972, -1 / 2592; 0, 0, -1 / 2592, 1 / 3456] (fun i => [6, 12, 18, 24].getD i 0)
        (lineResidual (fun i : Fin 4 => [6, 12, 18, 24].getD i 0) (fun i => y.getD i 0) g c) = 0 ∧
      form !![1 / 108, -1 / 432, 0, 0; -1 / 432, 1 / 432, -1 / 1296, 0; 0, -1 / 1296, 1 / 972, -1 / 2592; 0, 0, -1 / 2592, 1 / 3456] (fun _ => 1)
        (lineResidual (fun i : Fin 4 => [6, 12, 18, 24].getD i 0) (fun i => y.getD i 0) g c) = 0) : ModelFit b 0 g c :=
  (exModel_fit (A := !![216, 432, 648, 864; 432, 1728, 2592, 3456; 648, 2592, 5832, 7776; 864, 3456, 7776, 13824]) (v := [some 216, some 1728, some 5832, some 13824]) 48 48 g c h1 h3 h4 hy rfl rfl (by norm_num)
    (by decide +kernel) (by decide +kernel) (by decide +kernel) (by decide +kernel) (by decide +kernel) (by decide +kernel) (by decide +kernel) hg hN).2

/-- The same for the first two. -/
theorem exTwo {b : Boot ℚ} {y : List ℚ} (g c : ℚ) (h1 : b.n = y) (h3 : b.nO = [8, 4]) (h4 : b.dt = [6, 12]) (hy : y.length = 2) (hg : 0 ≤ g)
    (hN : form !![1 / 108, -1 / 432; -1 / 432, 1 / 864] (fun i => [6, 12].getD i 0) (lineResidual (fun i : Fin 2 => [6, 12].getD i 0) (fun i => y.getD i 0) g c) = 0 ∧
      form !![1 / 108, -1 / 432; -1 / 432, 1 / 864] (fun _ => 1) (lineResidual (fun i : Fin 2 => [6, 12].getD i 0) (fun i => y.getD i 0) g c) = 0) : ModelFit b 0 g c :=
  (exModel_fit (A := !![216, 432; 432, 1728]) (v := [some 216, some 1728]) 48 48 g c h1 h3 h4 hy rfl rfl (by norm_num)
    (by decide +kernel) (by decide +kernel) (by decide +kernel) (by decide +kernel) (by decide +kernel) (by decide +kernel) (by decide +kernel) hg hN).2

/-- `C148_diffusion` for the coordinates of C139, precise and rounded: the gradients are close to 0.0999 and 0.1003, and the theorem bounds the difference by 0.03. -/
example : ∃ Z Z', diffusionAnalyzer id (exOracle ℚ) () exUnc (exFineBase fun i j k => exIonPath exFine i j k / 10) = .ok (Z, ()) ∧ diffusionAnalyzer id (exOracle ℚ) () exUnc (exFineBase exRounded) = .ok (Z', ()) ∧
    ModelFit Z.diff 0 (21684805057 / 216972000000) (-2915807981 / 9040500000) ∧ ModelFit Z'.diff 0 (1974731 / 19680000) (-52917 / 164000) ∧
    ∀ g c g' c', ModelFit Z.diff 0 g c → ModelFit Z'.diff 0 g' c' → |g' - g| ≤ 3 / 100 := by
  obtain ⟨Z, h, n, o, t⟩ := exRun_values (x := diffusionAnalyzer id (exOracle ℚ) () exUnc (exFineBase fun i j k => exIonPath exFine i j k / 10))
    (y := [244428613 / 882000000, 38200339 / 41343750, 125593829 / 73500000, 250001 / 180000]) (n := [8, 4, 8 / 3, 2]) (t := [6, 12, 18, 24]) (by decide +kernel)
  obtain ⟨Z', h', n', o', t'⟩ := exRun_values (x := diffusionAnalyzer id (exOracle ℚ) () exUnc (exFineBase exRounded)) (y := [22351 / 80000, 9287 / 10000, 6873 / 4000, 27889 / 20000]) (n := [8, 4, 8 / 3, 2])
    (t := [6, 12, 18, 24]) (by decide +kernel)
  refine ⟨Z, Z', h, h', exFour _ _ n o t rfl (by norm_num) (by decide +kernel), exFour _ _ n' o' t' rfl (by norm_num) (by decide +kernel), fun g c g' c' f f' => ?_⟩
  have := (C148_diffusion exNum exParams exIons ["Na", "O", "Cl"] [0, 2] [1] exIons_picks exGrid 4 (by decide) _ _ _ _ (exIonPath exFine) (exIon_stored (by unfold HalfCell; decide +kernel)) (1 / 2000) (1 / 200)
    (by norm_num) exFine_steps exUnc (exFine_within _) id (exOracle ℚ) rfl rfl () () () Z Z' _ _ 1 (.inl ⟨rfl, rfl⟩) (.inl ⟨rfl, rfl⟩) h h' 0 (by rw [n]; decide) (53 / 100) (7 / 2) (by norm_num)
    (by rw [n, t]; decide +kernel) (fun i _ hi => by rw [n] at hi; rw [t]; exact (show ∀ i < 3, ([6, 12, 18, 24] : List ℚ).getD i 0 ^ 2 + [6, 12, 18, 24].getD i 0 * [6, 12, 18, 24].getD (i + 1) 0 +
      [6, 12, 18, 24].getD (i + 1) 0 ^ 2 ≤ 7 / 2 * ([6, 12, 18, 24].getD i 0 * [6, 12, 18, 24].getD (i + 1) 0) from by decide +kernel) i (Nat.lt_of_succ_lt_succ hi)) g c g' c' f f').1
  rw [t] at this
  exact this.trans (by decide +kernel)

/-- `C148_jump`, `C148_conductivity`: the same. -/
example : ∃ Z Z', jumpAnalyzer id (exOracle ℚ) () exUnc (exFineBase fun i j k => exIonPath exFine i j k / 10) = .ok (Z, ()) ∧ jumpAnalyzer id (exOracle ℚ) () exUnc (exFineBase exRounded) = .ok (Z', ()) ∧
    ModelFit Z.diff 0 (1998678797 / 7938000000) (-72742207 / 94500000) ∧ ModelFit Z'.diff 0 (182789 / 720000) (-46297 / 60000) ∧
    ∀ g c g' c', ModelFit Z.diff 0 g c → ModelFit Z'.diff 0 g' c' → |g' - g| ≤ 1 / 10 := by
  obtain ⟨Z, h, n, o, t⟩ := exRun_values (x := jumpAnalyzer id (exOracle ℚ) () exUnc (exFineBase fun i j k => exIonPath exFine i j k / 10)) (y := [326762633 / 441000000, 372370837 / 165375000]) (n := [8, 4]) (t := [6, 12])
    (by decide +kernel)
  obtain ⟨Z', h', n', o', t'⟩ := exRun_values (x := jumpAnalyzer id (exOracle ℚ) () exUnc (exFineBase exRounded)) (y := [6013 / 8000, 34123 / 15000]) (n := [8, 4]) (t := [6, 12]) (by decide +kernel)
  refine ⟨Z, Z', h, h', exTwo _ _ n o t rfl (by norm_num) (by decide +kernel), exTwo _ _ n' o' t' rfl (by norm_num) (by decide +kernel), fun g c g' c' f f' => ?_⟩
  have := C148_jump exNum exParams exIons ["Na", "O", "Cl"] [0, 2] [1] exIons_picks exGrid 4 (by decide) _ _ _ _ (exIonPath exFine) (exIon_stored (by unfold HalfCell; decide +kernel)) (1 / 2000) (1 / 200)
    (by norm_num) exFine_steps exUnc (exFine_within _) id (exOracle ℚ) rfl rfl () () () Z Z' _ _ 1 (.inl ⟨rfl, rfl⟩) (.inl ⟨rfl, rfl⟩) h h' 0 (by rw [n]; decide) (7 / 8) (7 / 2) (by norm_num)
    (by rw [n, t]; decide +kernel) (fun i _ hi => by rw [n] at hi; rw [t]; exact (show ∀ i < 1, ([6, 12] : List ℚ).getD i 0 ^ 2 + [6, 12].getD i 0 * [6, 12].getD (i + 1) 0 +
      [6, 12].getD (i + 1) 0 ^ 2 ≤ 7 / 2 * ([6, 12].getD i 0 * [6, 12].getD (i + 1) 0) from by decide +kernel) i (Nat.lt_of_succ_lt_succ hi)) g c g' c' f f'
  rw [t] at this
  exact this.trans (by decide +kernel)

example : ∃ Z Z', conductivityAnalyzer id (exOracle ℚ) () exUnc (.array [1, -2]) (exFineBase fun i j k => exIonPath exFine i j k / 10) = .ok (Z, ()) ∧
    conductivityAnalyzer id (exOracle ℚ) () exUnc (.array [1, -2]) (exFineBase exRounded) = .ok (Z', ()) ∧ ModelFit Z.diff 0 (587539801 / 3969000000) (-102055351 / 165375000) ∧
    ModelFit Z'.diff 0 (21073 / 144000) (-36619 / 60000) ∧ ∀ g c g' c', ModelFit Z.diff 0 g c → ModelFit Z'.diff 0 g' c' → |g' - g| ≤ 1 / 10 := by
  obtain ⟨Z, h, n, o, t⟩ := exRun_values (x := conductivityAnalyzer id (exOracle ℚ) () exUnc (.array [1, -2]) (exFineBase fun i j k => exIonPath exFine i j k / 10)) (y := [59772799 / 220500000, 383429099 / 330750000])
    (n := [8, 4]) (t := [6, 12]) (by decide +kernel)
  obtain ⟨Z', h', n', o', t'⟩ := exRun_values (x := conductivityAnalyzer id (exOracle ℚ) () exUnc (.array [1, -2]) (exFineBase exRounded)) (y := [10709 / 40000, 34373 / 30000]) (n := [8, 4]) (t := [6, 12]) (by decide +kernel)
  refine ⟨Z, Z', h, h', exTwo _ _ n o t rfl (by norm_num) (by decide +kernel), exTwo _ _ n' o' t' rfl (by norm_num) (by decide +kernel), fun g c g' c' f f' => ?_⟩
  have := C148_conductivity exNum exParams exIons ["Na", "O", "Cl"] [0, 2] [1] exIons_picks exGrid 4 (by decide) _ _ _ _ (exIonPath exFine) (exIon_stored (by unfold HalfCell; decide +kernel)) (1 / 2000) (1 / 200)
    (by norm_num) exFine_steps exUnc (exFine_within _) id (exOracle ℚ) rfl rfl () () () Z Z' _ _ 1 (.inl ⟨rfl, rfl⟩) (.inl ⟨rfl, rfl⟩) (.array [1, -2]) (fun l h => by cases h; rfl) h h' 0 (by rw [n]; decide) (11 / 20) (7 / 2) (by norm_num)
    (by rw [n, t]; decide +kernel) (fun i _ hi => by rw [n] at hi; rw [t]; exact (show ∀ i < 1, ([6, 12] : List ℚ).getD i 0 ^ 2 + [6, 12].getD i 0 * [6, 12].getD (i + 1) 0 +
      [6, 12].getD (i + 1) 0 ^ 2 ≤ 7 / 2 * ([6, 12].getD i 0 * [6, 12].getD (i + 1) 0) from by decide +kernel) i (Nat.lt_of_succ_lt_succ hi)) g c g' c' f f'
  rw [t] at this
  exact this.trans (by decide +kernel)

end Kinisi
