import Verif.Lemmas.MsdFl
import Verif.Lemmas.EndToEnd
import Verif.Props.DispFl
import Verif.Props.Observables

/-!
# C104: the mean squared displacement in floating point arithmetic
-/

set_option linter.unusedSectionVars false
set_option linter.unusedVariables false

namespace Kinisi
open Spec
variable {K : Type} [Field K] [LinearOrder K] [IsStrictOrderedRing K] [FloorRing K]

/-- **C104, mean.** Given the displacements, the mean of their squares computed in floating point arithmetic, adding in any order, has a small relative error: one factor `1 + ε` per
operation that a square passes through. -/
theorem C104_mean {fl : K → K} {ε : K} (h : RelErr fl ε) (hε : 0 ≤ ε) {ord : ℕ → SumOrder} (ho : ValidOrder ord) {axes : List (Fin 3)} (ha : axes ≠ []) (hn : axes.Nodup) (a : Arr3 K)
    (ha0 : 2 ≤ a.n0 * a.n1) :
    ∃ r, meanFl fl ord (dSquaredFl fl ord axes a) = some r ∧
      |r - msd axes.toFinset a| ≤ ((1 + ε) ^ ((ord axes.length).depth + (ord (a.n0 * a.n1)).depth + 2) - 1) * msd axes.toFinset a := by
  obtain ⟨r, m, hr, hm, -, he⟩ := meanSquare_error h hε ho ha a (by omega)
  rw [npMean_dSquared hn a ha0] at hm
  have : m = msd axes.toFinset a := by
    rw [← Option.some.inj hm]
    unfold meanOn msd sqLen
    rw [pairs_card, ← Nat.cast_mul]
    congr 1
    unfold pairs
    rw [Finset.sum_product]
  rw [this] at he
  exact ⟨r, hr, he⟩

/-- **C104, sign.** As long as that error is below one, the computed mean is never negative, and it is zero exactly if nothing moved along the chosen axes. -/
theorem C104_sign {fl : K → K} {ε : K} (h : RelErr fl ε) (hε : 0 ≤ ε) {ord : ℕ → SumOrder} (ho : ValidOrder ord) {axes : List (Fin 3)} (ha : axes ≠ []) (hn : axes.Nodup) (a : Arr3 K)
    (ha0 : 2 ≤ a.n0 * a.n1) (hs : (1 + ε) ^ ((ord axes.length).depth + (ord (a.n0 * a.n1)).depth + 2) < 2) :
    ∃ r, meanFl fl ord (dSquaredFl fl ord axes a) = some r ∧ 0 ≤ r ∧ (r = 0 ↔ ∀ i < a.n0, ∀ k < a.n1, ∀ x ∈ axes, a.get i k x = 0) := by
  obtain ⟨r, hr, he⟩ := C104_mean h hε ho ha hn a ha0
  have hsq : ∀ i ∈ Finset.range a.n0, 0 ≤ ∑ k ∈ Finset.range a.n1, ∑ x ∈ axes.toFinset, a.get i k x ^ 2 :=
    fun i _ => Finset.sum_nonneg fun k _ => Finset.sum_nonneg fun x _ => sq_nonneg _
  have hpos : (0 : K) < (a.n0 : K) * (a.n1 : K) := by
    have h0 : 0 < a.n0 * a.n1 := by omega
    exact_mod_cast h0
  have hm0 : 0 ≤ msd axes.toFinset a := div_nonneg (Finset.sum_nonneg hsq) hpos.le
  generalize hp : (1 + ε) ^ ((ord axes.length).depth + (ord (a.n0 * a.n1)).depth + 2) = p at *
  have h1 := abs_le.mp he
  refine ⟨r, hr, by nlinarith [h1.1], ?_⟩
  have hz : r = 0 ↔ msd axes.toFinset a = 0 := by
    constructor
    · rintro rfl
      nlinarith [h1.1]
    · intro h0
      rw [h0, mul_zero, sub_zero] at he
      exact abs_eq_zero.mp (le_antisymm he (abs_nonneg _))
  rw [hz]
  unfold msd
  rw [div_eq_zero_iff, or_iff_left hpos.ne', Finset.sum_eq_zero_iff_of_nonneg hsq]
  constructor
  · intro h0 i hi k hk x hx
    have h2 := (Finset.sum_eq_zero_iff_of_nonneg fun k _ => Finset.sum_nonneg fun x _ => sq_nonneg _).mp (h0 i (Finset.mem_range.mpr hi)) k (Finset.mem_range.mpr hk)
    have h3 := (Finset.sum_eq_zero_iff_of_nonneg fun x _ => sq_nonneg _).mp h2 x (List.mem_toFinset.mpr hx)
    exact pow_eq_zero_iff (by norm_num) |>.mp h3
  · intro h0 i hi
    refine Finset.sum_eq_zero fun k hk => Finset.sum_eq_zero fun x hx => ?_
    rw [h0 i (Finset.mem_range.mp hi) k (Finset.mem_range.mp hk) x (List.mem_toFinset.mp hx)]
    ring

/-- A trajectory of `n` atoms and `F` frames in the fixed cell `L`, true path `u`, stored with the images `m`, to be analysed in floating point arithmetic with relative error `ε`:
coordinates up to `C`, cell entries up to `A`, entries of the inverse cell up to `B`, error of the computed inverse up to `κ`, displacements from the first frame up to `M`, steps
that stay the margin of C91 below half a cell. -/
structure FlPath (fl : K → K) (ε : K) (inv : M3 K → PyM (M3 K)) (F n : ℕ) (L : M3 K) (u : ℕ → ℕ → V3 K) (m : ℕ → ℕ → Fin 3 → ℤ) (C A B κ M : K) : Prop where
  rel : RelErr fl ε
  nonneg : 0 ≤ ε
  small : ε ≤ 1 / 64
  frames : ε * (2 * (F + 1)) ≤ 1
  two : 2 ≤ F
  inverse : ∃ Linv LinvFl, IsInverse L Linv ∧ inv L = .ok LinvFl ∧ (∀ k l, |Linv k l| ≤ B) ∧ ∀ k l, |LinvFl k l - Linv k l| ≤ κ
  coord : ∀ i < n, ∀ j < F, ∀ k, |u i j k + m i j k| ≤ C
  cell : ∀ k l, |L k l| ≤ A
  far : ∀ i < n, ∀ j < F, ∀ l, |cart L (fun k => u i j k - u i 0 k) l| ≤ M
  step : ∀ i < n, ∀ j, j + 1 < F → ∀ k, |u i (j + 1) k - u i j k| < 1 / 2 - imageMargin ε C A B κ

/-- The coordinates as the parsers hand them to `get_disp`: the first frame twice (see C13). -/
def storedCoords (F n : ℕ) (u : ℕ → ℕ → V3 K) (m : ℕ → ℕ → Fin 3 → ℤ) : List (List (V3 K)) :=
  frames (F + 1) n fun j i => fun k => u i (j - 1) k + (m i (j - 1) k : K)

/-- The error of a displacement in a window, along the whole way. -/
def dispError (ε γ C A B M : K) (F : ℕ) : K := windowError ε (driftError ε γ (pathError ε C A B M F) M) M

theorem windows_near {fl : K → K} {ε : K} {inv : M3 K → PyM (M3 K)} {F n : ℕ} {L : M3 K} {u : ℕ → ℕ → V3 K} {m : ℕ → ℕ → Fin 3 → ℤ} {C A B κ M γ : K}
    (hP : FlPath fl ε inv F n L u m C A B κ M) {ord : ℕ → SumOrder} (ho : ValidOrder ord) {atoms fw : List ℕ} (hat : ∀ a ∈ atoms, a < n) (hfw : ∀ a ∈ fw, a < n) (hne : atoms ≠ [])
    {τ : ℕ} (hτ1 : 1 ≤ τ) (hτ : τ ≤ F) (hγ0 : 0 ≤ γ) (hγf : fw ≠ [] → (1 + ε) ^ ((ord fw.length).depth + 1) - 1 ≤ γ) :
    ∃ a b, windowsFl fl inv ord (storedCoords F n u m) (cells (F + 1) fun _ => L) (fw.map fun a : ℕ => (a : ℤ)) (atoms.map fun a : ℕ => (a : ℤ)) τ = .ok a ∧
      a.n0 = b.n0 ∧ a.n1 = b.n1 ∧ TrueWindows L u fw atoms F τ b ∧ (∀ s < b.n0, ∀ k < b.n1, ∀ l, |a.get s k l - b.get s k l| ≤ dispError ε γ C A B M F) ∧
      ∀ s < b.n0, ∀ k < b.n1, ∀ l, |b.get s k l| ≤ 4 * M := by
  obtain ⟨h, hε, hε', hFε, hF, ⟨Linv, LinvFl, hinv, hlib, hB, hκ⟩, hC, hA, hM, hstep⟩ := hP
  obtain ⟨i₀, hi₀⟩ := List.exists_mem_of_ne_nil atoms hne
  have hi₀ := hat i₀ hi₀
  have hC0 : 0 ≤ C := le_trans (abs_nonneg _) (hC i₀ hi₀ 0 (by omega) 0)
  have hA0 : 0 ≤ A := le_trans (abs_nonneg _) (hA 0 0)
  have hB0 : 0 ≤ B := le_trans (abs_nonneg _) (hB 0 0)
  have hM0 : 0 ≤ M := le_trans (abs_nonneg _) (hM i₀ hi₀ 0 (by omega) 0)
  have hmargin : (0 : K) < 1 / 2 - imageMargin ε C A B κ := lt_of_le_of_lt (abs_nonneg _) (hstep i₀ hi₀ 0 (by omega) 0)
  have hS0 : 0 ≤ stepError ε C A B + ε * M := by unfold stepError; positivity
  have hη : 0 ≤ pathError ε C A B M F := by unfold pathError; positivity
  have hθ : 0 ≤ driftError ε γ (pathError ε C A B M F) M := by unfold driftError; positivity
  -- displacements from the first frame
  obtain ⟨w, d, hd, d0, d1, hde⟩ := C91_path h hε hε' inv (F + 1) n (by omega) (by push_cast; exact hFε) L Linv LinvFl hinv hlib (fun i j => u i (j - 1)) (fun i j => m i (j - 1)) C A B κ M
    (fun i hi j hj => hC i hi (j - 1) (by omega)) hA hB hκ (fun i hi j hj => hM i hi (j - 1) (by omega)) (by
      intro i hi j hj k
      cases j with
      | zero => simpa using hmargin
      | succ j => exact hstep i hi j (by omega) k)
  rw [Nat.add_sub_cancel] at d1 hde
  have hdisp : ∀ i < n, ∀ j < F, ∀ l, |d.get i j l - cart L (fun k => u i j k - u i 0 k) l| ≤ pathError ε C A B M F := by
    intro i hi j hj l
    refine le_trans (hde i hi j hj l) ?_
    unfold pathError
    refine mul_le_mul_of_nonneg_right ?_ hS0
    have : ((j : K) + 1) ≤ F := by exact_mod_cast hj
    linarith
  -- relative to the framework
  obtain ⟨dc, hdc, c0, c1, hce⟩ := correctDriftFl_error h hε ho hfw hγ0 hγf d0 d1 hη hM0 hM hdisp
  have hrel : ∀ i < n, ∀ j < F, ∀ l, |relTo fw (fun i j l => cart L (fun k => u i j k - u i 0 k) l) i j l| ≤ 2 * M := by
    intro i hi j hj l
    unfold relTo
    have e1 := hM i hi j hj l
    have e2 := meanOver_bound (l := fw) (f := fun a => cart L (fun k => u a j k - u a 0 k) l) hM0 fun a ha => hM a (hfw a ha) j hj l
    have := abs_sub_le' (a := cart L (fun k => u i j k - u i 0 k) l) (b := meanOver fw fun a => cart L (fun k => u a j k - u a 0 k) l)
    linarith
  -- windows
  obtain ⟨a, ha, a0, a1, hae⟩ := multiOriginFl_error h hε c1 hθ hM0 hrel hce hat hτ1 hτ
  have hpath : ∀ i < n, ∀ j < F, ∀ l, (fun i j l => cart L (fun k => u i j k - u i 0 k) l) i j l = cart L (u i j) l - cart L (u i 0) l := by
    intro i _ j _ l
    show cart L (fun k => u i j k - u i 0 k) l = _
    unfold cart
    rw [← Finset.sum_sub_distrib]
    exact Finset.sum_congr rfl fun k _ => by ring
  have hmv := fun {i s t : ℕ} (hi : i < n) (hs : s < F) (ht : t < F) (l : Fin 3) => trueMove_of_path hpath hfw hi hs ht l
  have hrel0 : ∀ i < n, ∀ l, relTo fw (fun i j l => cart L (fun k => u i j k - u i 0 k) l) i 0 l = 0 := by
    intro i _ l
    unfold relTo meanOver
    have hc : ∀ i, cart L (fun k => u i 0 k - u i 0 k) l = 0 := fun i => by simp [cart]
    simp only [hc]
    simp
  -- the array of the true displacements
  set b : Arr3 K := ⟨atoms.length, F - τ + 1, fun s k => if k = 0 then trueMove L u fw (atoms.getD s 0) 0 (τ - 1) else
    trueMove L u fw (atoms.getD s 0) (k - 1) (k - 1 + τ)⟩ with hb
  have hgetD : ∀ s (hs : s < atoms.length), atoms.getD s 0 = atoms[s] := fun s hs => by
    rw [List.getD_eq_getElem?_getD, List.getElem?_eq_getElem hs]; rfl
  have hbw : TrueWindows L u fw atoms F τ b := by
    refine ⟨rfl, rfl, fun s hs => ⟨fun l => by simp only [hb, if_true, hgetD s hs], fun k hk l => ?_⟩⟩
    simp only [hb, Nat.succ_ne_zero, if_false, Nat.add_sub_cancel, hgetD s hs]
  have hab : ∀ s < atoms.length, ∀ k < F - τ + 1, ∀ l, |a.get s k l - b.get s k l| ≤ dispError ε γ C A B M F := by
    intro s hs k hk l
    have hi := hat _ (List.getElem_mem hs)
    cases k with
    | zero =>
      have := (hae s hs).1 l
      rw [(hbw.2.2 s hs).1 l, ← hmv hi (by omega) (by omega) l, hrel0 _ hi, sub_zero]
      exact this
    | succ k =>
      have := (hae s hs).2 k (by omega) l
      rw [(hbw.2.2 s hs).2 k (by omega) l, ← hmv hi (by omega) (by omega) l]
      exact this
  have hbM : ∀ s < atoms.length, ∀ k < F - τ + 1, ∀ l, |b.get s k l| ≤ 4 * M := by
    intro s hs k hk l
    have hi := hat _ (List.getElem_mem hs)
    cases k with
    | zero =>
      rw [(hbw.2.2 s hs).1 l, ← hmv hi (by omega) (by omega) l]
      have := abs_sub_le' (a := relTo fw (fun i j l => cart L (fun k => u i j k - u i 0 k) l) atoms[s] (τ - 1) l)
        (b := relTo fw (fun i j l => cart L (fun k => u i j k - u i 0 k) l) atoms[s] 0 l)
      have := hrel _ hi (τ - 1) (by omega) l
      have := hrel _ hi 0 (by omega) l
      linarith
    | succ k =>
      rw [(hbw.2.2 s hs).2 k (by omega) l, ← hmv hi (by omega) (by omega) l]
      have := abs_sub_le' (a := relTo fw (fun i j l => cart L (fun k => u i j k - u i 0 k) l) atoms[s] (k + τ) l)
        (b := relTo fw (fun i j l => cart L (fun k => u i j k - u i 0 k) l) atoms[s] k l)
      have := hrel _ hi (k + τ) (by omega) l
      have := hrel _ hi k (by omega) l
      linarith
  refine ⟨a, b, ?_, a0, a1, hbw, hab, hbM⟩
  unfold windowsFl storedCoords
  rw [hd]
  simp only [bind, Except.bind]
  rw [hdc]
  simp only
  rw [c0, mapM_natIdx hat]
  exact ha

/-- **C104, from coordinates to MSD.** All of `get_disp`, `correct_drift`, `get_disps` and the mean in floating point arithmetic, adding in any order: the computed MSD differs from the one of
the true path by at most `msdError`, whatever the stored images. -/
theorem C104_msd {fl : K → K} {ε : K} {inv : M3 K → PyM (M3 K)} {F n : ℕ} {L : M3 K} {u : ℕ → ℕ → V3 K} {m : ℕ → ℕ → Fin 3 → ℤ} {C A B κ M : K} (hP : FlPath fl ε inv F n L u m C A B κ M)
    {ord : ℕ → SumOrder} (ho : ValidOrder ord) (atoms fw : List ℕ) (hat : ∀ a ∈ atoms, a < n) (hfw : ∀ a ∈ fw, a < n) (hne : atoms ≠ []) (axes : List (Fin 3)) (hax : axes ≠ []) (hnd : axes.Nodup)
    (τ : ℕ) (hτ1 : 1 ≤ τ) (hτ : τ ≤ F) (γ : K) (hγf : fw ≠ [] → (1 + ε) ^ ((ord fw.length).depth + 1) - 1 ≤ γ)
    (hγ : (1 + ε) ^ ((ord axes.length).depth + (ord (atoms.length * (F - τ + 1))).depth + 2) - 1 ≤ γ) :
    ∃ r, msdFl fl inv ord (storedCoords F n u m) (cells (F + 1) fun _ => L) (fw.map fun a : ℕ => (a : ℤ)) (atoms.map fun a : ℕ => (a : ℤ)) axes τ = .ok (some r) ∧
      |r - reportedMsd axes.toFinset L u fw atoms F τ| ≤ msdError γ (dispError ε γ C A B M F) (4 * M) (reportedMsd axes.toFinset L u fw atoms F τ) := by
  have hε := hP.nonneg
  have hγ0 : 0 ≤ γ := by
    have : (1 : K) ≤ (1 + ε) ^ ((ord axes.length).depth + (ord (atoms.length * (F - τ + 1))).depth + 2) := one_le_pow₀ (by linarith)
    linarith
  obtain ⟨a, b, ha, e0, e1, hb, hab, hbM⟩ := windows_near hP ho hat hfw hne hτ1 hτ hγ0 hγf
  have hlen := List.length_pos_iff.2 hne
  obtain ⟨r, hr, he⟩ := meanSquare_near (γ := γ) hP.rel hε ho hax hnd e0 e1 (by rw [hb.1, hb.2.1]; positivity) hab hbM (by rw [hb.1, hb.2.1]; exact hγ)
  rw [msd_true hb] at he
  refine ⟨r, ?_, he⟩
  unfold msdFl
  rw [ha]
  simp only [bind, Except.bind]
  rw [hr]

/-- The array of the sums over the atoms, with charges `q`. -/
def totalArr (q : ℕ → K) (b : Arr3 K) : Arr3 K := ⟨1, b.n1, fun _ k x => ∑ i ∈ Finset.range b.n0, q i * b.get i k x⟩

theorem msd_totalArr (A : Finset (Fin 3)) (q : ℕ → K) (b : Arr3 K) : msd A (totalArr q b) = mscd A q b := by
  unfold msd mscd totalArr
  simp

theorem collMotionFl_eq (fl : K → K) (ord : ℕ → SumOrder) (axes : List (Fin 3)) (a : Arr3 K) :
    collMotionFl fl ord axes a = dSquaredFl fl ord axes ⟨1, a.n1, fun _ k x => sumFl fl ord ((List.range a.n0).map fun i => a.get i k x)⟩ := by
  simp [collMotionFl, dSquaredFl]

theorem mapM_pure_eq {α β : Type} (f : α → β) (l : List α) : l.mapM (fun a => (.ok (f a) : PyM β)) = .ok (l.map f) := by
  induction l with
  | nil => rfl
  | cons a l ih => rw [List.mapM_cons, ih]; rfl

theorem chgMotionFl_eq (fl : K → K) (ord : ℕ → SumOrder) (q : List K) (a : Arr3 K) (hq : q.length = a.n0) :
    chgMotionFl fl ord q a = .ok (dSquaredFl fl ord (List.finRange 3)
      ⟨1, a.n1, fun _ k x => sumFl fl ord ((List.range a.n0).map fun i => fl (q.getD i 0 * a.get i k x))⟩) := by
  unfold chgMotionFl chargeSumFl
  rw [if_pos (.inl hq)]
  simp only [if_pos hq, mapM_pure_eq]
  simp only [bind, Except.bind, pure, Except.pure, mapM_pure_eq]
  simp [dSquaredFl, List.map_map, Function.comp_def]

theorem total_bound {N : ℕ} {q y : ℕ → K} {Q W : K} (hQ : ∀ i < N, |q i| ≤ Q) (hy : ∀ i < N, |y i| ≤ W) (hQ0 : 0 ≤ Q) :
    |∑ i ∈ Finset.range N, q i * y i| ≤ N * (Q * W) := by
  refine le_trans (Finset.abs_sum_le_sum_abs _ _) ?_
  have := Finset.sum_le_card_nsmul (Finset.range N) (fun i => |q i * y i|) (Q * W) (by
    intro i hi
    have hi := Finset.mem_range.mp hi
    rw [abs_mul]
    exact mul_le_mul (hQ i hi) (hy i hi) (abs_nonneg _) hQ0)
  rwa [Finset.card_range, nsmul_eq_mul] at this

/-- **C104, from coordinates to MSTD.** The same for the squared total displacement. -/
theorem C104_mstd {fl : K → K} {ε : K} {inv : M3 K → PyM (M3 K)} {F n : ℕ} {L : M3 K} {u : ℕ → ℕ → V3 K} {m : ℕ → ℕ → Fin 3 → ℤ} {C A B κ M : K} (hP : FlPath fl ε inv F n L u m C A B κ M)
    {ord : ℕ → SumOrder} (ho : ValidOrder ord) (atoms fw : List ℕ) (hat : ∀ a ∈ atoms, a < n) (hfw : ∀ a ∈ fw, a < n) (hne : atoms ≠ []) (axes : List (Fin 3)) (hax : axes ≠ []) (hnd : axes.Nodup)
    (τ : ℕ) (hτ1 : 1 ≤ τ) (hτ : τ ≤ F) (γ : K) (hγf : fw ≠ [] → (1 + ε) ^ ((ord fw.length).depth + 1) - 1 ≤ γ) (hγs : (1 + ε) ^ (ord atoms.length).depth - 1 ≤ γ)
    (hγ : (1 + ε) ^ ((ord axes.length).depth + (ord (F - τ + 1)).depth + 2) - 1 ≤ γ) :
    ∃ r, mstdFl fl inv ord (storedCoords F n u m) (cells (F + 1) fun _ => L) (fw.map fun a : ℕ => (a : ℤ)) (atoms.map fun a : ℕ => (a : ℤ)) axes τ = .ok (some r) ∧
      |r - reportedTotal axes.toFinset L u fw atoms (fun _ => 1) F τ| ≤
        msdError γ (totalError ε γ (dispError ε γ C A B M F) (4 * M) 1 atoms.length) (atoms.length * (4 * M)) (reportedTotal axes.toFinset L u fw atoms (fun _ => 1) F τ) := by
  have hε := hP.nonneg
  have hγ0 : 0 ≤ γ := by
    have : (1 : K) ≤ (1 + ε) ^ ((ord axes.length).depth + (ord (F - τ + 1)).depth + 2) := one_le_pow₀ (by linarith)
    linarith
  obtain ⟨a, b, ha, e0, e1, hb, hab, hbM⟩ := windows_near hP ho hat hfw hne hτ1 hτ hγ0 hγf
  have hlen := List.length_pos_iff.2 hne
  have hb0 : b.n0 = atoms.length := hb.1
  obtain ⟨r, hr, he⟩ := meanSquare_near (γ := γ) (a := ⟨1, a.n1, fun _ k x => sumFl fl ord ((List.range a.n0).map fun i => a.get i k x)⟩) (b := totalArr (fun _ => 1) b)
    (ω := totalError ε γ (dispError ε γ C A B M F) (4 * M) 1 atoms.length) (W := atoms.length * (4 * M)) hP.rel hε ho hax hnd rfl e1 (by unfold totalArr; simp [hb.2.1])
    (fun s _ k hk l => by
      rw [e0, hb0]
      unfold totalArr
      simp only
      rw [hb0]
      exact total_near hP.rel hε ho hlen zero_le_one hγs (x := fun i => a.get i k l) (y := fun i => b.get i k l) (q := fun _ => 1)
        (fun i hi => hab i (by omega) k hk l) (fun i hi => hbM i (by omega) k hk l) (fun i _ => by simp)
        (fun i _ => by simp only [one_mul, sub_self, abs_zero]; positivity))
    (fun s _ k hk l => by
      unfold totalArr
      simp only
      rw [hb0]
      have := total_bound (q := fun _ => (1 : K)) (y := fun i => b.get i k l) (Q := 1) (W := 4 * M) (N := atoms.length) (fun i _ => by simp) (fun i hi => hbM i (by omega) k hk l) zero_le_one
      rwa [one_mul] at this)
    (by unfold totalArr; simp only [one_mul]; rw [hb.2.1]; exact hγ)
  rw [msd_totalArr, mscd_true hb] at he
  refine ⟨r, ?_, he⟩
  unfold mstdFl
  rw [ha]
  simp only [bind, Except.bind]
  rw [collMotionFl_eq, hr]

/-- **C104, from coordinates to MSCD.** The same for the squared charge displacement, charges up to `Q`, a scalar or one per atom. -/
theorem C104_mscd {fl : K → K} {ε : K} {inv : M3 K → PyM (M3 K)} {F n : ℕ} {L : M3 K} {u : ℕ → ℕ → V3 K} {m : ℕ → ℕ → Fin 3 → ℤ} {C A B κ M : K} (hP : FlPath fl ε inv F n L u m C A B κ M)
    {ord : ℕ → SumOrder} (ho : ValidOrder ord) (atoms fw : List ℕ) (hat : ∀ a ∈ atoms, a < n) (hfw : ∀ a ∈ fw, a < n) (hne : atoms ≠ [])
    (charge : Charge K) (hlq : ∀ l, charge = .array l → l.length = atoms.length) (Q : K) (hQ : ∀ i, |charge.of i| ≤ Q)
    (τ : ℕ) (hτ1 : 1 ≤ τ) (hτ : τ ≤ F) (γ : K) (hγf : fw ≠ [] → (1 + ε) ^ ((ord fw.length).depth + 1) - 1 ≤ γ) (hγs : (1 + ε) ^ (ord atoms.length).depth - 1 ≤ γ)
    (hγ : (1 + ε) ^ ((ord 3).depth + (ord (F - τ + 1)).depth + 2) - 1 ≤ γ) :
    ∃ r, mscdFl fl inv ord (storedCoords F n u m) (cells (F + 1) fun _ => L) (fw.map fun a : ℕ => (a : ℤ)) (atoms.map fun a : ℕ => (a : ℤ)) charge τ = .ok (some r) ∧
      |r - reportedTotal Finset.univ L u fw atoms charge.of F τ| ≤
        msdError γ (totalError ε γ (dispError ε γ C A B M F) (4 * M) Q atoms.length) (atoms.length * (Q * (4 * M))) (reportedTotal Finset.univ L u fw atoms charge.of F τ) := by
  have hε := hP.nonneg
  have hγ0 : 0 ≤ γ := by
    have : (1 : K) ≤ (1 + ε) ^ ((ord 3).depth + (ord (F - τ + 1)).depth + 2) := one_le_pow₀ (by linarith)
    linarith
  have hQ0 : 0 ≤ Q := le_trans (abs_nonneg _) (hQ 0)
  obtain ⟨a, b, ha, e0, e1, hb, hab, hbM⟩ := windows_near hP ho hat hfw hne hτ1 hτ hγ0 hγf
  have hlen := List.length_pos_iff.2 hne
  have hb0 : b.n0 = atoms.length := hb.1
  set q := charge.expand a.n0 with hq
  have hql : q.length = a.n0 := by
    rw [hq]
    cases charge with
    | scalar c => simp [Charge.expand]
    | array l => simp only [Charge.expand]; rw [hlq l rfl, e0, hb0]
  have hqi : ∀ i < atoms.length, q.getD i 0 = charge.of i := by
    intro i hi
    rw [hq]
    cases charge with
    | scalar c => simp [Charge.expand, Charge.of, e0, hb0, hi]
    | array l => rfl
  obtain ⟨r, hr, he⟩ := meanSquare_near (γ := γ) (a := ⟨1, a.n1, fun _ k x => sumFl fl ord ((List.range a.n0).map fun i => fl (q.getD i 0 * a.get i k x))⟩) (b := totalArr charge.of b)
    (ω := totalError ε γ (dispError ε γ C A B M F) (4 * M) Q atoms.length) (W := atoms.length * (Q * (4 * M))) (axes := List.finRange 3) hP.rel hε ho (by decide) (by decide) rfl e1
    (by unfold totalArr; simp [hb.2.1])
    (fun s _ k hk l => by
      rw [e0, hb0]
      unfold totalArr
      simp only
      rw [hb0]
      exact total_near hP.rel hε ho hlen hQ0 hγs (x := fun i => a.get i k l) (y := fun i => b.get i k l) (q := charge.of)
        (fun i hi => hab i (by omega) k hk l) (fun i hi => hbM i (by omega) k hk l) (fun i _ => hQ i)
        (fun i hi => by simp only [hqi i hi]; exact hP.rel _))
    (fun s _ k hk l => by
      unfold totalArr
      simp only
      rw [hb0]
      exact total_bound (fun i _ => hQ i) (fun i hi => hbM i (by omega) k hk l) hQ0)
    (by unfold totalArr; simp only [one_mul, List.length_finRange]; rw [hb.2.1]; exact hγ)
  have hf : (List.finRange 3).toFinset = (Finset.univ : Finset (Fin 3)) := by decide
  rw [hf, msd_totalArr, mscd_true hb] at he
  refine ⟨r, ?_, he⟩
  unfold mscdFl
  rw [ha]
  simp only [bind, Except.bind]
  rw [← hq, chgMotionFl_eq fl ord q a hql]
  simp only
  rw [hr]

/-! ### Examples -/

/-- Adding one number after the other. -/
def seqOrder : ℕ → SumOrder
  | 0 => .leaf 0
  | 1 => .leaf 0
  | n + 2 => .add (seqOrder (n + 1)) (.leaf (n + 1))

theorem seqOrder_leaves : ∀ n, (seqOrder (n + 1)).leaves = List.range (n + 1)
  | 0 => rfl
  | n + 1 => by rw [seqOrder, SumOrder.leaves, seqOrder_leaves n, SumOrder.leaves, ← List.range_succ]

theorem seqOrder_valid : ValidOrder seqOrder := fun n hn => by
  obtain ⟨k, rfl⟩ := Nat.exists_eq_succ_of_ne_zero hn.ne'
  rw [seqOrder_leaves]

/-- In whatever order `n` numbers are added, no number takes part in `n` or more additions: the hypotheses on `γ` hold for `γ = (1 + ε) ^ (n + 4) - 1`. -/
theorem depth_lt_leaves (t : SumOrder) : t.depth < t.leaves.length := by
  induction t with
  | leaf i => simp [SumOrder.depth, SumOrder.leaves]
  | add a b iha ihb =>
    simp only [SumOrder.depth, SumOrder.leaves, List.length_append]
    rcases max_cases a.depth b.depth with ⟨h, -⟩ | ⟨h, -⟩ <;> omega

/-- Two atoms in the box of `exFlBox`: one moves by 0.4 cells per frame along each axis, the other rests. -/
def exFlTrue : ℕ → ℕ → V3 ℚ := fun i j _ => if i = 0 then 2 / 5 * (j : ℚ) else 1 / 4
def exFlImages : ℕ → ℕ → Fin 3 → ℤ := fun i j _ => if i = 0 then -⌊(2 / 5 * (j : ℚ))⌋ else 0

theorem exFl_path : FlPath fl64 (1 / (2 ^ 53 : ℕ) : ℚ) (fun _ => .ok exFlInv64) 4 2 exFlBox exFlTrue exFlImages 1 11 (1 / 10) (1 / 10 ^ 17) 13 where
  rel := relErr_of_rounding (by norm_num) rounding_fl64
  nonneg := by norm_num
  small := by norm_num
  frames := by norm_num
  two := by norm_num
  inverse := ⟨exFlInv, exFlInv64, by unfold IsInverse; decide +kernel, rfl, by decide +kernel, by decide +kernel⟩
  coord := by decide +kernel
  cell := by decide +kernel
  far := by unfold cart; decide +kernel
  step := by
    intro i hi j hj k
    have hj : j < 3 := by omega
    clear * - hi hj
    revert k; revert hi; revert i; revert j
    unfold imageMargin
    decide +kernel

/-- `C104_msd`, `C104_mstd` and `C104_mscd` apply in binary64; their bounds are below 10⁻⁷ (the MSD is about 37). -/
example : (∃ r, msdFl fl64 (fun _ => .ok exFlInv64) seqOrder (storedCoords 4 2 exFlTrue exFlImages) (cells 5 fun _ => exFlBox) [1] [0] [0, 1, 2] 1 = .ok (some r) ∧
      |r - reportedMsd Finset.univ exFlBox exFlTrue [1] [0] 4 1| ≤ 1 / 10 ^ 7) ∧
    (∃ r, mstdFl fl64 (fun _ => .ok exFlInv64) seqOrder (storedCoords 4 2 exFlTrue exFlImages) (cells 5 fun _ => exFlBox) [1] [0] [0, 1, 2] 1 = .ok (some r) ∧
      |r - reportedTotal Finset.univ exFlBox exFlTrue [1] [0] (fun _ => 1) 4 1| ≤ 1 / 10 ^ 7) ∧
    ∃ r, mscdFl fl64 (fun _ => .ok exFlInv64) seqOrder (storedCoords 4 2 exFlTrue exFlImages) (cells 5 fun _ => exFlBox) [1] [0] (.scalar (-2)) 1 = .ok (some r) ∧
      |r - reportedTotal Finset.univ exFlBox exFlTrue [1] [0] (fun _ => -2) 4 1| ≤ 1 / 10 ^ 7 := by
  have hu : ([0, 1, 2] : List (Fin 3)).toFinset = Finset.univ := by decide
  refine ⟨?_, ?_, ?_⟩
  · obtain ⟨r, hr, he⟩ := C104_msd exFl_path seqOrder_valid [0] [1] (by decide) (by decide) (by decide) [0, 1, 2] (by decide) (by decide) 1 le_rfl (by norm_num) (1 / 10 ^ 14)
      (fun _ => by decide +kernel) (by decide +kernel)
    rw [hu] at he
    refine ⟨r, hr, le_trans he ?_⟩
    unfold msdError dispError windowError driftError pathError stepError reportedMsd lengthSq trueMove meanOver cart
    decide +kernel
  · obtain ⟨r, hr, he⟩ := C104_mstd exFl_path seqOrder_valid [0] [1] (by decide) (by decide) (by decide) [0, 1, 2] (by decide) (by decide) 1 le_rfl (by norm_num) (1 / 10 ^ 14)
      (fun _ => by decide +kernel) (by decide +kernel) (by decide +kernel)
    rw [hu] at he
    refine ⟨r, hr, le_trans he ?_⟩
    unfold msdError totalError dispError windowError driftError pathError stepError reportedTotal lengthSq totalMove trueMove meanOver cart
    decide +kernel
  · obtain ⟨r, hr, he⟩ := C104_mscd exFl_path seqOrder_valid [0] [1] (by decide) (by decide) (by decide) (.scalar (-2)) (fun l h => by cases h) 2 (fun i => by simp [Charge.of]) 1 le_rfl
      (by norm_num) (1 / 10 ^ 14) (fun _ => by decide +kernel) (by decide +kernel) (by decide +kernel)
    refine ⟨r, hr, le_trans he ?_⟩
    unfold msdError totalError dispError windowError driftError pathError stepError reportedTotal lengthSq totalMove trueMove meanOver cart Charge.of
    decide +kernel

/-- `C104_mean` and `C104_sign` in binary64, for the displacements of two atoms in two windows. -/
example : ∃ r, meanFl fl64 seqOrder (dSquaredFl fl64 seqOrder [0, 1, 2] ⟨2, 2, fun i k _ => if i = 0 then (k : ℚ) / 3 else 0⟩) = some r ∧ 0 ≤ r ∧ ¬ r = 0 := by
  obtain ⟨r, hr, h0, h1⟩ := C104_sign (relErr_of_rounding (by norm_num) rounding_fl64) (by norm_num) seqOrder_valid (axes := [0, 1, 2]) (by decide) (by decide)
    ⟨2, 2, fun i k _ => if i = 0 then (k : ℚ) / 3 else 0⟩ (by norm_num) (by decide +kernel)
  refine ⟨r, hr, h0, fun h => ?_⟩
  have := h1.mp h 0 (by norm_num) 1 (by norm_num) 0 (by decide)
  norm_num at this

end Kinisi
