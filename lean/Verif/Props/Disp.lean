import Verif.Lemmas.Disp

/-!
# C01–C06: unwrapping and drift correction
-/

set_option linter.unusedSectionVars false
set_option linter.unusedVariables false

namespace Kinisi
open Spec
variable {K : Type} [Field K] [LinearOrder K] [IsStrictOrderedRing K] [FloorRing K]

/-- **C01.** `u i j` is the true (unwrapped, fractional) path of atom `i`, `m i j` an arbitrary periodic image choice.
If the true path moves by less than half a cell per step, `get_disp` returns the true Cartesian displacement. -/
theorem C01_unwrap_recovers_path (F n : ℕ) (hF : 0 < F) (L : M3 K) (hL : NonSingular L)
    (u : ℕ → ℕ → V3 K) (m : ℕ → ℕ → Fin 3 → ℤ)
    (hstep : ∀ i < n, ∀ j, j + 1 < F → HalfCell fun k => u i (j + 1) k - u i j k) :
    ∃ w a, getDisp (frames F n fun j i => fun k => u i j k + (m i j k : K)) (cells F fun _ => L) = .ok (w, a) ∧
      a.n0 = n ∧ a.n1 = F - 1 ∧
      ∀ i < n, ∀ j < F - 1, a.get i j = cart L fun k => u i (j + 1) k - u i 0 k := by
  have hdet : det3 L ≠ 0 := by rw [det3_eq_det]; exact hL
  obtain ⟨a, ha, h0, h1, hget⟩ := getDisp_frames F n hF (fun j i => fun k => u i j k + (m i j k : K)) (fun _ => L)
    (fun _ _ => hdet)
  refine ⟨_, a, ha, h0, h1, ?_⟩
  intro i hi j hj
  funext l
  rw [hget i hi j hj l]
  have : ∀ t ∈ Finset.range (j + 1),
      unwrapStep (fun k => u i t k + (m i t k : K)) (fun k => u i (t + 1) k + (m i (t + 1) k : K)) L L (invFun L) l
        = cart L (u i (t + 1)) l - cart L (u i t) l := by
    intro t ht
    have ht' := Finset.mem_range.1 ht
    rw [unwrapStep_fixed L hdet _ _ _ _ (hstep i hi t (by omega)), cart_sub]
  rw [Finset.sum_congr rfl this, sum_range_tele (fun t => cart L (u i t) l), cart_sub]

/-- A skew cell over ℚ used in the examples. -/
def exCell : M3 ℚ := ![![4, 0, 0], ![1, 5, 0], ![0, 1, 6]]

example : ∃ w a, getDisp (frames 3 2 fun j i => fun k => ((i + j : ℕ) : ℚ) / 5 + (((-1) ^ j * k : ℤ) : ℚ)) (cells 3 fun _ => exCell)
    = .ok (w, a) ∧ a.n0 = 2 ∧ a.n1 = 2 ∧
      ∀ i < 2, ∀ j < 2, a.get i j = cart exCell fun k => ((i + (j + 1) : ℕ) : ℚ) / 5 - ((i + 0 : ℕ) : ℚ) / 5 := by
  refine C01_unwrap_recovers_path 3 2 (by norm_num) exCell ?_ (fun i j _ => ((i + j : ℕ) : ℚ) / 5)
    (fun _ j k => (-1) ^ j * k) ?_
  · rw [nonSingular_iff]; decide +kernel
  · intro i _ j _ k; push_cast; constructor <;> ring_nf <;> norm_num

/-- **C02.** For arbitrary (also changing) invertible cells every step of the result is *the* minimum image of the raw
Cartesian step in the later cell, and the result is the running sum of the steps. -/
theorem C02_steps_are_minimum_images (F n : ℕ) (hF : 0 < F) (f : ℕ → ℕ → V3 K) (L : ℕ → M3 K)
    (hL : ∀ j < F, NonSingular (L j)) :
    ∃ w a, getDisp (frames F n f) (cells F L) = .ok (w, a) ∧ a.n0 = n ∧ a.n1 = F - 1 ∧
      ∃ step : ℕ → ℕ → V3 K,
        (∀ i < n, ∀ j, j + 1 < F → MinImage (L (j + 1)) (fun l => cart (L (j + 1)) (f (j + 1) i) l - cart (L j) (f j i) l)
          (step i j)) ∧
        ∀ i < n, ∀ j < F - 1, ∀ l, a.get i j l = ∑ t ∈ Finset.range (j + 1), step i t l := by
  have hdet : ∀ j < F, det3 (L j) ≠ 0 := fun j hj => by rw [det3_eq_det]; exact hL j hj
  obtain ⟨a, ha, h0, h1, hget⟩ := getDisp_frames F n hF f L hdet
  refine ⟨_, a, ha, h0, h1, fun i t => unwrapStep (f t i) (f (t + 1) i) (L t) (L (t + 1)) (invFun (L (t + 1))), ?_, hget⟩
  intro i _ j hj
  exact minImage_unwrapStep _ _ _ _ (hdet _ hj)

/-- **C02, uniqueness.** There is only one minimum image, half-open boundary included. -/
theorem C02_minimum_image_unique (L : M3 K) (hL : NonSingular L) (raw d e : V3 K) (hd : MinImage L raw d)
    (he : MinImage L raw e) : d = e :=
  minImage_unique (by rw [det3_eq_det]; exact hL) hd he

example : MinImage (fun r c => if r = c then (10 : ℚ) else 0) (fun _ => 15) (fun _ => -5) :=
  ⟨⟨fun _ => 2, fun l => by fin_cases l <;> norm_num [cart, Fin.sum_univ_three]⟩,
    fun _ => -(1 / 2), fun _ => by norm_num, by funext l; fin_cases l <;> norm_num [cart, Fin.sum_univ_three]⟩

example : ∃ w a, getDisp (frames 2 1 fun j _ => fun _ => (j : ℚ) / 3) (cells 2 fun j => ![![(10 + j : ℚ), 0, 0], ![0, 10 + j, 0], ![0, 0, 10 + j]])
    = .ok (w, a) ∧ a.n0 = 1 ∧ a.n1 = 1 := by
  obtain ⟨w, a, h, h0, h1, -⟩ := C02_steps_are_minimum_images 2 1 (by norm_num) (fun j _ => fun _ => (j : ℚ) / 3)
    (fun j => ![![(10 + j : ℚ), 0, 0], ![0, 10 + j, 0], ![0, 0, 10 + j]])
    (fun j _ => by rw [nonSingular_iff]; simp [det3]; positivity)
  exact ⟨w, a, h, h0, h1⟩

/-- **C03 (part that holds).** Stored images may be changed in every frame whose cell is also the cell of the next frame
(in particular everywhere in a fixed cell, and in the last frame always).  Missing for the full property: image changes
in a frame followed by a different cell, see `C03_violated_npt`. -/
theorem C03_image_invariance_partial (F n : ℕ) (hF : 0 < F) (f : ℕ → ℕ → V3 K) (L : ℕ → M3 K)
    (hL : ∀ j < F, NonSingular (L j)) (m : ℕ → ℕ → Fin 3 → ℤ)
    (hm : ∀ i < n, ∀ j, j + 1 < F → m i j ≠ 0 → L (j + 1) = L j) :
    ∃ w a b, getDisp (frames F n f) (cells F L) = .ok (w, a) ∧
      getDisp (frames F n fun j i => fun k => f j i k + (m i j k : K)) (cells F L) = .ok (w, b) ∧
      a.n0 = b.n0 ∧ a.n1 = b.n1 ∧ ∀ i < a.n0, ∀ j < a.n1, a.get i j = b.get i j := by
  have hdet : ∀ j < F, det3 (L j) ≠ 0 := fun j hj => by rw [det3_eq_det]; exact hL j hj
  obtain ⟨a, ha, a0, a1, ag⟩ := getDisp_frames F n hF f L hdet
  obtain ⟨b, hb, b0, b1, bg⟩ := getDisp_frames F n hF (fun j i => fun k => f j i k + (m i j k : K)) L hdet
  refine ⟨_, a, b, ha, hb, by rw [a0, b0], by rw [a1, b1], ?_⟩
  intro i hi j hj
  rw [a0] at hi
  rw [a1] at hj
  funext l
  rw [ag i hi j hj l, bg i hi j hj l]
  apply Finset.sum_congr rfl
  intro t ht
  have ht' := Finset.mem_range.1 ht
  have hd := hdet (t + 1) (by omega)
  have e : unwrapStep (f t i) (f (t + 1) i) (L t) (L (t + 1)) (invFun (L (t + 1))) =
      unwrapStep (fun k => f t i k + (m i t k : K)) (fun k => f (t + 1) i k + (m i (t + 1) k : K)) (L t) (L (t + 1))
        (invFun (L (t + 1))) := by
    apply minImage_unique hd (minImage_unwrapStep _ _ _ _ hd)
    obtain ⟨⟨q, hq⟩, s, hs, hds⟩ := minImage_unwrapStep (fun k => f t i k + (m i t k : K))
      (fun k => f (t + 1) i k + (m i (t + 1) k : K)) (L t) (L (t + 1)) hd
    refine ⟨⟨fun k => q k - m i (t + 1) k + m i t k, fun l => ?_⟩, s, hs, hds⟩
    rw [hq l]
    by_cases h0 : m i t = 0
    · simp only [cart, Fin.sum_univ_three, h0]; push_cast; simp; ring
    · rw [← hm i hi t (by omega) h0]
      simp only [cart, Fin.sum_univ_three]; push_cast; ring
  rw [e]

/-- **C03 is violated for a cell that changes in time.** An atom at the origin of a cubic cell growing from 10 to 12 does
not move; stored as its neighbouring image (fractional coordinate 1 in both frames) it moves by 2. -/
theorem C03_violated_npt : ∃ (f : ℕ → ℕ → V3 ℚ) (L : ℕ → M3 ℚ) (m : ℕ → ℕ → Fin 3 → ℤ),
    (∀ j, NonSingular (L j)) ∧ ∃ w a b, getDisp (frames 2 1 f) (cells 2 L) = .ok (w, a) ∧
      getDisp (frames 2 1 fun j i => fun k => f j i k + (m i j k : ℚ)) (cells 2 L) = .ok (w, b) ∧
      a.get 0 0 0 = 0 ∧ b.get 0 0 0 = 2 := by
  let L : ℕ → M3 ℚ := fun j => ![![(10 + 2 * j : ℚ), 0, 0], ![0, 10 + 2 * j, 0], ![0, 0, 10 + 2 * j]]
  have hL : ∀ j, NonSingular (L j) := fun j => by
    rw [nonSingular_iff]; simp [det3, L]; positivity
  have hdet : ∀ j < 2, det3 (L j) ≠ 0 := fun j _ => by rw [det3_eq_det]; exact hL j
  refine ⟨fun _ _ _ => 0, L, fun _ _ _ => 1, hL, ?_⟩
  obtain ⟨a, ha, -, -, ag⟩ := getDisp_frames 2 1 (by norm_num) (fun _ _ _ => (0 : ℚ)) L hdet
  obtain ⟨b, hb, -, -, bg⟩ := getDisp_frames 2 1 (by norm_num) (fun j i => fun k => (0 : ℚ) + ((1 : ℤ) : ℚ)) L hdet
  refine ⟨_, a, b, ha, hb, ?_, ?_⟩
  · rw [ag 0 (by norm_num) 0 (by norm_num)]
    decide +kernel
  · rw [bg 0 (by norm_num) 0 (by norm_num)]
    decide +kernel

example : ∃ w a b, getDisp (frames 2 1 fun _ _ => fun _ => (1 / 3 : ℚ)) (cells 2 fun _ => exCell) = .ok (w, a) ∧
      getDisp (frames 2 1 fun j i => fun k => (1 / 3 : ℚ) + (((j : ℤ) - 7 : ℤ) : ℚ)) (cells 2 fun _ => exCell) = .ok (w, b) ∧
      a.n0 = b.n0 ∧ a.n1 = b.n1 ∧ ∀ i < a.n0, ∀ j < a.n1, a.get i j = b.get i j :=
  C03_image_invariance_partial 2 1 (by norm_num) _ _
    (fun _ _ => by rw [nonSingular_iff]; decide +kernel) (fun _ j _ => (j : ℤ) - 7)
    (fun _ _ _ _ _ => rfl)

/-- **C04.** The warning flag is exact. -/
theorem C04_warning_exact (coords : List (List (V3 K))) (latt : List (M3 K)) (w : Bool) (a : Arr3 K)
    (h : getDisp coords latt = .ok (w, a)) :
    w = true ↔ ∃ L ∈ latt, ∃ r c, r ≠ c ∧ L r c ≠ 0 := by
  have hw : w = triclinicTest latt := by
    unfold getDisp at h
    cases coords with
    | nil => simp at h
    | cons c0 cs =>
      dsimp only at h
      split at h
      · cases hm : latt.mapM inv3 with
        | error e => rw [hm] at h; simp [bind, Except.bind] at h
        | ok inv =>
          rw [hm] at h
          simp only [bind, Except.bind] at h
          split at h
          · simp at h
          · simp only [Except.ok.injEq, Prod.mk.injEq] at h; exact h.1.symm
      · simp at h
  rw [hw]
  simp [triclinicTest, List.any_eq_true]

example : ∃ a, getDisp [[(0 : V3 ℚ)], [0]] [exCell, exCell] = .ok (true, a) := by
  obtain ⟨a, ha, -⟩ := getDisp_frames 2 1 (by norm_num) (fun _ _ => (0 : V3 ℚ)) (fun _ => exCell)
    (fun _ _ => by decide +kernel)
  refine ⟨a, ?_⟩
  have : triclinicTest (cells 2 fun _ => exCell) = true := by
    simp only [triclinicTest, cells, List.any_eq_true]
    exact ⟨exCell, by simp, 1, by simp, 0, by simp, by simp [exCell]⟩
  rw [this] at ha
  exact ha

/-- **C05.** Outcome of `get_disp` by cases: ragged or empty input is a ValueError, a singular cell anywhere a
LinAlgError, another number of cells than of frames a ValueError (for one cell or one frame numpy would broadcast), and otherwise an array of shape `[atoms, frames - 1]` is returned. -/
theorem C05_outcomes (coords : List (List (V3 K))) (latt : List (M3 K)) :
    (coords = [] → getDisp coords latt = .error .valueError) ∧
    ((∃ c ∈ coords, ∃ c' ∈ coords, c.length ≠ c'.length) → getDisp coords latt = .error .valueError) ∧
    (∀ n, coords ≠ [] → (∀ c ∈ coords, c.length = n) →
      ((∃ L ∈ latt, ¬ NonSingular L) → getDisp coords latt = .error .linAlgError) ∧
      ((∀ L ∈ latt, NonSingular L) →
        (coords.length ≠ latt.length → 1 < coords.length → 1 < latt.length → getDisp coords latt = .error .valueError) ∧
        (coords.length = latt.length → ∃ w a, getDisp coords latt = .ok (w, a) ∧ a.n0 = n ∧ a.n1 = coords.length - 1))) := by
  refine ⟨?_, ?_, ?_⟩
  · rintro rfl; rfl
  · rintro ⟨c, hc, c', hc', hne⟩
    cases coords with
    | nil => simp at hc
    | cons c0 cs =>
      have : ((c0 :: cs).all fun c => decide (c.length = c0.length)) = false := by
        by_contra hall
        rw [Bool.not_eq_false, List.all_eq_true] at hall
        have h1 := of_decide_eq_true (hall c hc)
        have h2 := of_decide_eq_true (hall c' hc')
        exact hne (h1.trans h2.symm)
      unfold getDisp
      dsimp only
      rw [this]
      rfl
  · intro n hne hn
    cases coords with
    | nil => exact absurd rfl hne
    | cons c0 cs =>
      have hall : ((c0 :: cs).all fun c => decide (c.length = c0.length)) = true := by
        rw [List.all_eq_true]
        intro c hc
        exact decide_eq_true ((hn c hc).trans (hn c0 (by simp)).symm)
      constructor
      · rintro ⟨A, hA, hdet⟩
        rw [NonSingular, ← det3_eq_det, not_not] at hdet
        have hm : latt.mapM inv3 = .error .linAlgError := by
          apply mapM_except_err inv3 _ latt A hA (inv3_err hdet)
          intro B _
          by_cases hB : det3 B = 0
          · exact Or.inl (inv3_err hB)
          · exact Or.inr ⟨_, inv3_ok hB⟩
        unfold getDisp
        dsimp only
        rw [hall, if_pos rfl, hm]
        rfl
      · intro hinv
        have hm : latt.mapM inv3 = .ok (latt.map invFun) := by
          apply mapM_except_ok
          intro A hA
          apply inv3_ok
          rw [det3_eq_det]; exact hinv A hA
        unfold getDisp
        dsimp only
        rw [hall, if_pos rfl, hm]
        simp only [bind, Except.bind]
        refine ⟨fun hlen _ _ => by rw [if_pos hlen], fun hlen => ?_⟩
        rw [if_neg (by simp [hlen])]
        exact ⟨_, _, rfl, hn c0 (by simp), rfl⟩

example : getDisp [[(0 : V3 ℚ)], [0]] [exCell, fun _ _ => 1] = .error .linAlgError :=
  ((C05_outcomes [[(0 : V3 ℚ)], [0]] [exCell, fun _ _ => 1]).2.2 1 (by simp) (by simp)).1
    ⟨fun _ _ => 1, by simp, by rw [nonSingular_iff]; norm_num [det3]⟩

/-- **C06.** Drift correction with a non-empty list of valid framework indices: (1) the framework's mean displacement is
zero at every step, (2) differences between atoms are preserved, (3) a motion common to all atoms has no effect,
(4) correcting again changes nothing. -/
theorem C06_drift_correction (drift : List ℤ) (hne : drift ≠ []) (disp : Arr3 K)
    (hv : ∀ d ∈ drift, ValidIdx disp.n0 d) :
    ∃ a, correctDrift drift disp = .ok a ∧ a.n0 = disp.n0 ∧ a.n1 = disp.n1 ∧
      (∀ j l, meanOver (drift.map (atomOf disp.n0)) (fun i => a.get i j l) = 0) ∧
      (∀ i i' j l, a.get i j l - a.get i' j l = disp.get i j l - disp.get i' j l) ∧
      (∀ c : ℕ → V3 K, correctDrift drift { disp with get := fun i j l => disp.get i j l + c j l } = .ok a) ∧
      correctDrift drift a = .ok a := by
  have hpos : drift.length > 0 := List.length_pos_iff.2 hne
  have hK : ((drift.length : ℕ) : K) ≠ 0 := by exact_mod_cast hpos.ne'
  have hm : drift.mapM (npIdx disp.n0) = .ok (drift.map (atomOf disp.n0)) :=
    mapM_except_ok _ _ _ fun d hd => npIdx_valid (hv d hd)
  have hc : ∀ g : ℕ → ℕ → V3 K, correctDrift drift { disp with get := g } = .ok { disp with
      get := fun i j l => g i j l - meanOver (drift.map (atomOf disp.n0)) fun r => g r j l } := by
    intro g
    unfold correctDrift
    rw [if_pos hpos]
    dsimp only
    rw [hm]
    rfl
  have hsum : ∀ (g : ℕ → K) (c : K) (l : List ℕ), (l.map fun r => g r + c).sum = (l.map g).sum + l.length * c := by
    intro g c l
    induction l with
    | nil => simp
    | cons x l ih => simp only [List.map_cons, List.sum_cons, ih, List.length_cons]; push_cast; ring
  have hmean : ∀ (g : ℕ → K) (c : K), meanOver (drift.map (atomOf disp.n0)) (fun r => g r + c) =
      meanOver (drift.map (atomOf disp.n0)) g + c := by
    intro g c
    simp only [meanOver, hsum, List.length_map]
    field_simp
  have hmean0 : ∀ j l, meanOver (drift.map (atomOf disp.n0)) (fun i => disp.get i j l -
      meanOver (drift.map (atomOf disp.n0)) fun r => disp.get r j l) = 0 := by
    intro j l
    simp only [sub_eq_add_neg]
    rw [hmean]; ring
  refine ⟨_, hc disp.get, rfl, rfl, hmean0, ?_, ?_, ?_⟩
  · intro i i' j l; dsimp only; ring
  · intro c
    rw [hc]
    congr 2
    funext i j l
    rw [hmean]; ring
  · rw [hc]
    congr 2
    funext i j l
    rw [hmean0, sub_zero]

/-- **C06, the other cases.** No framework atoms: unchanged.  An index that names no atom: IndexError. -/
theorem C06_no_framework (disp : Arr3 K) : correctDrift [] disp = .ok disp := rfl

theorem C06_bad_index (drift : List ℤ) (disp : Arr3 K) (d : ℤ) (hd : d ∈ drift) (hbad : ¬ ValidIdx disp.n0 d) :
    correctDrift drift disp = .error .indexError := by
  have hm : drift.mapM (npIdx disp.n0) = .error .indexError := by
    apply mapM_except_err _ _ _ d hd (npIdx_invalid hbad)
    intro b _
    by_cases hb : ValidIdx disp.n0 b
    · exact Or.inr ⟨_, npIdx_valid hb⟩
    · exact Or.inl (npIdx_invalid hb)
  unfold correctDrift
  rw [if_pos (List.length_pos_of_mem hd), hm]
  rfl

example : ∃ a, correctDrift [0, -1] (⟨3, 2, fun i j _ => (i * i + j : ℚ)⟩ : Arr3 ℚ) = .ok a ∧
    a.get 0 1 0 = -2 ∧ a.get 1 1 0 = -1 ∧ a.get 2 1 0 = 2 := by
  obtain ⟨a, ha, -⟩ := C06_drift_correction [0, -1] (by simp) (⟨3, 2, fun i j _ => (i * i + j : ℚ)⟩ : Arr3 ℚ)
    (by intro d hd; fin_cases hd <;> simp [ValidIdx])
  have hr : correctDrift [0, -1] (⟨3, 2, fun i j _ => (i * i + j : ℚ)⟩ : Arr3 ℚ) = .ok
    ⟨3, 2, fun i j _ => (i * i + j : ℚ) - ([0, 2].map fun r : ℕ => (r * r + j : ℚ)).sum / 2⟩ := by
    rfl
  refine ⟨_, hr, ?_, ?_, ?_⟩ <;> norm_num

example : correctDrift [5] (⟨3, 2, fun _ _ _ => 1⟩ : Arr3 ℚ) = .error .indexError :=
  C06_bad_index _ _ 5 (by simp) (by simp [ValidIdx])

end Kinisi
