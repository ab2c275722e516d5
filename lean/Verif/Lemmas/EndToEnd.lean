import Verif.Spec.EndToEnd
import Verif.Lemmas.Parser
import Verif.Lemmas.Observables
import Verif.Props.TimeGrid

/-!
# Lemmas: from the frames of a trajectory to the windows of true displacements
-/

set_option linter.unusedSectionVars false
set_option linter.unusedVariables false

namespace Kinisi
open Spec
variable {K : Type} [Field K] [LinearOrder K] [IsStrictOrderedRing K] [FloorRing K]

theorem positions_eq {p : String → Bool} (l : List String) :
    positions p l = ((List.range l.length).filter fun k => p (l.getD k "")).map fun k : ℕ => (k : ℤ) := by
  have hz : l.zipIdx = (List.range l.length).map fun k => (l.getD k "", k) := by
    apply List.ext_getElem
    · simp
    · intro i h1 h2
      simp at h1
      simp [h1]
  unfold positions
  rw [hz, List.filter_map, List.map_map]
  rfl

theorem getIndices_chosen {sy sp : List String} {sel : Selection} (h : getIndices sy sp none = .ok sel) :
    sel.indices = (chosen sy sp).map (fun k : ℕ => (k : ℤ)) ∧ sel.drift.vals = (others sy sp).map fun k : ℕ => (k : ℤ) := by
  unfold getIndices at h
  simp only at h
  split_ifs at h
  obtain rfl := Except.ok.inj h
  exact ⟨positions_eq sy, positions_eq (p := fun s => !sp.contains s) sy⟩

theorem map_atomOf (n : ℕ) (l : List ℕ) : (l.map (fun k : ℕ => (k : ℤ))).map (atomOf n) = l := by
  rw [List.map_map]
  conv_rhs => rw [← List.map_id l]
  apply List.map_congr_left
  intro k _
  simp [atomOf]

theorem mem_chosen {sy sp : List String} {i : ℕ} (h : i ∈ chosen sy sp) : i < sy.length := by
  unfold chosen at h
  simpa using (List.mem_filter.mp h).1

theorem mem_others {sy sp : List String} {i : ℕ} (h : i ∈ others sy sp) : i < sy.length := by
  unfold others at h
  simpa using (List.mem_filter.mp h).1

/-- In a fixed cell with steps below half a cell the unwrapped path is the true path. -/
theorem path_is_true {F n : ℕ} {L : M3 K} (hL : NonSingular L) {u : ℕ → ℕ → V3 K} {m : ℕ → ℕ → Fin 3 → ℤ}
    (hstep : ∀ i < n, ∀ j, j + 1 < F → HalfCell fun k => u i (j + 1) k - u i j k) {Lf : ℕ → M3 K} (hLf : ∀ j < F, Lf j = L)
    {x : ℕ → ℕ → V3 K} (hx : ∀ j < F, ∀ i < n, x j i = fun k => u i j k + (m i j k : K)) {p : ℕ → ℕ → V3 K}
    (hp : IsPath F n Lf x p) : ∀ i < n, ∀ j < F, ∀ l, p i j l = cart L (u i j) l - cart L (u i 0) l := by
  have hdet : det3 L ≠ 0 := by rw [det3_eq_det]; exact hL
  intro i hi j
  induction j with
  | zero => intro _ l; rw [(hp i hi).1]; simp
  | succ j ih =>
    intro hj l
    have hmi := (hp i hi).2 j hj
    rw [hLf (j + 1) hj, hLf j (by omega), hx (j + 1) hj i hi, hx j (by omega) i hi] at hmi
    have htrue : MinImage L (fun l => cart L (fun k => u i (j + 1) k + (m i (j + 1) k : K)) l -
        cart L (fun k => u i j k + (m i j k : K)) l) (fun l => cart L (u i (j + 1)) l - cart L (u i j) l) := by
      refine ⟨⟨fun k => m i (j + 1) k - m i j k, fun l => ?_⟩, fun k => u i (j + 1) k - u i j k, hstep i hi j hj, ?_⟩
      · simp only [cart, Fin.sum_univ_three]; push_cast; ring
      · funext l; rw [cart_sub]
    have := congrFun (minImage_unique hdet hmi htrue) l
    have h2 := ih (by omega) l
    linear_combination this + h2

theorem meanOver_congr {l : List ℕ} {f g : ℕ → K} (h : ∀ a ∈ l, f a = g a) : meanOver l f = meanOver l g := by
  unfold meanOver
  rw [List.map_congr_left h]

theorem meanOver_sub (l : List ℕ) (f g : ℕ → K) : meanOver l (fun a => f a - g a) = meanOver l f - meanOver l g := by
  unfold meanOver
  rw [← sub_div]
  congr 1
  induction l with
  | nil => simp
  | cons a l ih => simp only [List.map_cons, List.sum_cons, ih]; ring

/-- A true move in terms of the true path. -/
theorem trueMove_of_path {F n : ℕ} {L : M3 K} {u p : ℕ → ℕ → V3 K}
    (hp : ∀ i < n, ∀ j < F, ∀ l, p i j l = cart L (u i j) l - cart L (u i 0) l) {fw : List ℕ} (hfw : ∀ a ∈ fw, a < n) {i s t : ℕ}
    (hi : i < n) (hs : s < F) (ht : t < F) (l : Fin 3) : relTo fw p i t l - relTo fw p i s l = trueMove L u fw i s t l := by
  unfold relTo trueMove
  rw [hp i hi t ht, hp i hi s hs, meanOver_congr fun a ha => hp a (hfw a ha) t ht l, meanOver_congr fun a ha => hp a (hfw a ha) s hs l,
    meanOver_sub, meanOver_sub, meanOver_sub]
  ring

/-- The windows delivered by the parser hold true displacements. -/
theorem trueWindows_of_frame {F n : ℕ} {L : M3 K} {u p : ℕ → ℕ → V3 K}
    (hp : ∀ i < n, ∀ j < F, ∀ l, p i j l = cart L (u i j) l - cart L (u i 0) l) {fw atoms : List ℕ} (hfw : ∀ a ∈ fw, a < n)
    (hat : ∀ a ∈ atoms, a < n) {τ : ℕ} (h1 : 1 ≤ τ) (h2 : τ ≤ F) {a : Arr3 K} (h : FrameWindows F (relTo fw p) atoms τ a) :
    TrueWindows L u fw atoms F τ a := by
  obtain ⟨e0, e1, e2⟩ := h
  refine ⟨e0, by rw [e1]; omega, fun s hs => ?_⟩
  have hi := hat _ (List.getElem_mem hs)
  obtain ⟨f1, f2⟩ := e2 s hs
  constructor
  · intro l
    rw [f2 l, trueMove_of_path hp hfw hi (by omega) (by omega)]
  · intro k hk l
    rw [f1 (k + 1) (by omega) (by omega) l, Nat.add_sub_cancel, trueMove_of_path hp hfw hi (by omega) (by omega)]

/-- The mean squared displacement of such windows. -/
theorem msd_true {L : M3 K} {u : ℕ → ℕ → V3 K} {fw atoms : List ℕ} {F τ : ℕ} {a : Arr3 K}
    (h : TrueWindows L u fw atoms F τ a) (A : Finset (Fin 3)) : msd A a = reportedMsd A L u fw atoms F τ := by
  obtain ⟨e0, e1, e2⟩ := h
  unfold msd reportedMsd
  rw [e0, e1]
  congr 1
  rw [Finset.sum_range, ← List.sum_ofFn]
  congr 1
  have hl : atoms = List.ofFn fun i : Fin atoms.length => atoms[i] := by simp
  conv_rhs => rw [hl]
  rw [List.map_ofFn]
  congr 1
  funext i
  simp only [Function.comp]
  obtain ⟨f2, f1⟩ := e2 i i.2
  rw [Finset.sum_range_succ', add_comm]
  congr 1
  · unfold lengthSq
    exact Finset.sum_congr rfl fun x _ => by rw [f2 x]; rfl
  · apply Finset.sum_congr rfl
    intro k hk
    unfold lengthSq
    exact Finset.sum_congr rfl fun x _ => by rw [f1 k (Finset.mem_range.mp hk) x]; rfl

/-- The mean squared charge displacement of such windows. -/
theorem mscd_true {L : M3 K} {u : ℕ → ℕ → V3 K} {fw atoms : List ℕ} {F τ : ℕ} {a : Arr3 K}
    (h : TrueWindows L u fw atoms F τ a) (A : Finset (Fin 3)) (q : ℕ → K) : mscd A q a = reportedTotal A L u fw atoms q F τ := by
  obtain ⟨e0, e1, e2⟩ := h
  unfold mscd reportedTotal
  rw [e0, e1]
  congr 1
  rw [Finset.sum_range_succ', add_comm]
  have hrow : ∀ k s t, (∀ j (hj : j < atoms.length) l, a.get j k l = trueMove L u fw atoms[j] s t l) →
      ∑ x ∈ A, (∑ i ∈ Finset.range atoms.length, q i * a.get i k x) ^ 2 = lengthSq A (totalMove L u fw atoms q s t) := by
    intro k s t hk
    unfold lengthSq totalMove
    refine Finset.sum_congr rfl fun x _ => ?_
    rw [Finset.sum_range]
    congr 1
    exact Finset.sum_congr rfl fun j _ => by rw [hk j j.2 x]; rfl
  congr 1
  · exact hrow 0 0 (τ - 1) fun j hj l => (e2 j hj).1 l
  · exact Finset.sum_congr rfl fun k hk => hrow (k + 1) k (k + τ) fun j hj l => (e2 j hj).2 k (Finset.mem_range.mp hk) l

/-- The mean squared total displacement of such windows. -/
theorem mstd_true {L : M3 K} {u : ℕ → ℕ → V3 K} {fw atoms : List ℕ} {F τ : ℕ} {a : Arr3 K}
    (h : TrueWindows L u fw atoms F τ a) (A : Finset (Fin 3)) : mstd A a = reportedTotal A L u fw atoms (fun _ => 1) F τ := by
  rw [← mscd_true h]
  simp [mstd, mscd]

/-- With default bounds and linear spacing the intervals ascend strictly from 1 to at most the number of steps. -/
theorem default_intervals {geo : ℤ → ℤ → ℕ → ℕ → K} {ts ss : PyNum K} (hpos : 0 < ss.val * ts.val) {T : ℕ} (hT : 2 ≤ T) {nSteps : ℤ}
    {l : List ℤ} (h : initTimeIntervals id geo T ts ss none none nSteps "linear" = .ok l) :
    (∀ τ ∈ l, 1 ≤ τ) ∧ l.Pairwise (· < ·) := by
  have hmax : (PyNum.mul id (PyNum.int (T : ℤ)) (PyNum.mul id ss ts)).val = (T : K) * (ss.val * ts.val) := by
    rw [PyNum.val_mul_id, PyNum.val_mul_id]; simp [PyNum.val]
  have hTd : ⌊(T : K) * (ss.val * ts.val) / (ss.val * ts.val)⌋ = T := by rw [mul_div_cancel_right₀ _ hpos.ne']; simp
  have h1 : stepsOf id ts ss (ss.val * ts.val) = .ok 1 := by
    rw [stepsOf_id hpos hpos.le, div_self hpos.ne']; simp
  have h2 : stepsOf id ts ss ((T : K) * (ss.val * ts.val)) = .ok (T : ℤ) := by
    rw [stepsOf_id hpos (by positivity), hTd]
  unfold initTimeIntervals at h
  dsimp only [maxDtOf, minDtOf] at h
  rw [hmax, PyNum.val_mul_id, h1] at h
  simp only [bind, Except.bind] at h
  rw [if_neg (by omega)] at h
  have hNT : (if nSteps > (T : ℤ) - 1 + 1 then (T : ℤ) - 1 + 1 else nSteps) ≤ T := by split_ifs <;> omega
  generalize (if nSteps > (T : ℤ) - 1 + 1 then (T : ℤ) - 1 + 1 else nSteps) = N at h hNT
  obtain ⟨d1, d0, dneg⟩ := C07_degenerate_counts id geo ts ss _ _ 1 T h1 h2
  rcases lt_or_ge N 0 with hN | hN
  · rw [dneg N hN] at h; cases h
  obtain ⟨k, rfl⟩ := Int.eq_ofNat_of_zero_le hN
  rcases Nat.lt_or_ge k 2 with hk | hk
  · interval_cases k
    · rw [show ((0 : ℕ) : ℤ) = 0 by rfl, d0] at h
      obtain rfl := Except.ok.inj h
      simp
    · rw [show ((1 : ℕ) : ℤ) = 1 by rfl, d1] at h
      obtain rfl := Except.ok.inj h
      simp
  · obtain ⟨l', hl, hlen, -, -, -, hr, he⟩ := C07_linear_intervals geo ts ss _ rfl hpos _ _ hpos.le (by positivity) 1 T
      (by rw [div_self hpos.ne']; simp) hTd.symm (by omega) k hk
    rw [hl] at h
    obtain rfl := Except.ok.inj h
    refine ⟨fun τ hτ => (hr τ hτ).1, ?_⟩
    rw [List.pairwise_iff_getElem]
    intro i j hi hj hij
    have ei := he i (by omega)
    have ej := he j (by omega)
    rw [List.getElem?_eq_getElem hi] at ei
    rw [List.getElem?_eq_getElem hj] at ej
    rw [Option.some.inj ei, Option.some.inj ej, Int.lt_iff_add_one_le, Int.le_floor]
    have hk1 : (0 : K) < (k : K) - 1 := by
      have : ((2 : ℕ) : K) ≤ (k : K) := by exact_mod_cast hk
      push_cast at this; linarith
    have hT1 : (k : K) - 1 ≤ (((T : ℤ) - 1 : ℤ) : K) := by
      have : ((k : ℤ) : K) ≤ ((T : ℤ) : K) := by exact_mod_cast hNT
      push_cast at this ⊢; linarith
    have hq : 1 ≤ (((T : ℤ) - 1 : ℤ) : K) / ((k : K) - 1) := by rw [le_div_iff₀ hk1]; linarith
    have hij' : (i : K) + 1 ≤ (j : K) := by exact_mod_cast hij
    have hfl := Int.floor_le (((1 : ℤ) : K) + (i : K) * (((T : ℤ) - 1 : ℤ) : K) / ((k : K) - 1))
    rw [mul_div_assoc] at hfl ⊢
    rw [mul_div_assoc]
    push_cast at hfl hq ⊢
    nlinarith

end Kinisi
