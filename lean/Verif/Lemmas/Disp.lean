import Verif.Model.Disp
import Verif.Spec.Disp

set_option linter.unusedSectionVars false

namespace Kinisi
open Spec
variable {K : Type} [Field K] [LinearOrder K] [IsStrictOrderedRing K] [FloorRing K]

theorem det3_eq_det (A : M3 K) : det3 A = (Matrix.of A).det := by
  rw [Matrix.det_fin_three]; simp [det3]; ring

theorem nonSingular_iff (A : M3 K) : NonSingular A ↔ det3 A ≠ 0 := by rw [NonSingular, det3_eq_det]

/-- The inverse matrix as a plain function. -/
def invFun (A : M3 K) : M3 K := fun i j => (![![A 1 1 * A 2 2 - A 1 2 * A 2 1, A 0 2 * A 2 1 - A 0 1 * A 2 2, A 0 1 * A 1 2 - A 0 2 * A 1 1],
    ![A 1 2 * A 2 0 - A 1 0 * A 2 2, A 0 0 * A 2 2 - A 0 2 * A 2 0, A 0 2 * A 1 0 - A 0 0 * A 1 2],
    ![A 1 0 * A 2 1 - A 1 1 * A 2 0, A 0 1 * A 2 0 - A 0 0 * A 2 1, A 0 0 * A 1 1 - A 0 1 * A 1 0]] i j) / det3 A

theorem inv3_ok {A : M3 K} (h : det3 A ≠ 0) : inv3 A = .ok (invFun A) := by
  unfold inv3; rw [if_neg h]; rfl

theorem inv3_err {A : M3 K} (h : det3 A = 0) : inv3 A = .error .linAlgError := by
  simp [inv3, h]

theorem vm_inv_left {A : M3 K} (h : det3 A ≠ 0) (x : V3 K) : vm (vm x A) (invFun A) = x := by
  funext l
  fin_cases l <;>
  · simp only [vm, invFun, Fin.sum_univ_three, Fin.isValue, Fin.zero_eta, Fin.mk_one, Fin.reduceFinMk,
      Matrix.cons_val_zero, Matrix.cons_val_one, Matrix.cons_val]
    field_simp
    simp only [det3]
    ring

theorem vm_inv_right {A : M3 K} (h : det3 A ≠ 0) (x : V3 K) : vm (vm x (invFun A)) A = x := by
  funext l
  fin_cases l <;>
  · simp only [vm, invFun, Fin.sum_univ_three, Fin.isValue, Fin.zero_eta, Fin.mk_one, Fin.reduceFinMk,
      Matrix.cons_val_zero, Matrix.cons_val_one, Matrix.cons_val]
    field_simp
    simp only [det3]
    ring

theorem mapM_except_ok {α β : Type} (f : α → PyM β) (g : α → β) (l : List α) (h : ∀ a ∈ l, f a = .ok (g a)) :
    l.mapM f = .ok (l.map g) := by
  induction l with
  | nil => rfl
  | cons a l ih =>
    rw [List.mapM_cons, h a (by simp), ih (fun b hb => h b (by simp [hb]))]
    rfl

/-- A failing element makes `mapM` fail. If all errors are equal, that error comes out. -/
theorem mapM_except_err {α β : Type} (f : α → PyM β) (e : PyErr) (l : List α) (a : α) (ha : a ∈ l)
    (hfa : f a = .error e) (h : ∀ b ∈ l, f b = .error e ∨ ∃ v, f b = .ok v) : l.mapM f = .error e := by
  induction l with
  | nil => simp at ha
  | cons b l ih =>
    rw [List.mapM_cons]
    rcases h b (by simp) with hb | ⟨v, hb⟩
    · rw [hb]; rfl
    · rw [hb]
      have hal : a ∈ l := by
        rcases List.mem_cons.1 ha with rfl | h'
        · rw [hfa] at hb; simp at hb
        · exact h'
      rw [show (Except.ok v >>= fun b => (do let bs ← l.mapM f; pure (b :: bs)) : PyM (List β)) =
        (do let bs ← l.mapM f; pure (v :: bs)) from rfl, ih hal (fun c hc => h c (by simp [hc]))]
      rfl

theorem mapM_except_inv {α β : Type} {f : α → PyM β} {l : List α} {r : List β} (h : l.mapM f = .ok r) :
    r.length = l.length ∧ ∀ i (hi : i < l.length) (hr : i < r.length), f l[i] = .ok r[i] := by
  induction l generalizing r with
  | nil =>
    have : r = [] := by simpa [List.mapM_nil, pure, Except.pure] using h.symm
    subst this; simp
  | cons a l ih =>
    rw [List.mapM_cons] at h
    cases hfa : f a with
    | error e => rw [hfa] at h; simp [bind, Except.bind] at h
    | ok v =>
      cases hl : l.mapM f with
      | error e => rw [hfa, hl] at h; simp [bind, Except.bind] at h
      | ok vs =>
        rw [hfa, hl] at h
        have : r = v :: vs := by simpa [bind, Except.bind, pure, Except.pure] using h.symm
        subst this
        obtain ⟨h1, h2⟩ := ih hl
        refine ⟨by simp [h1], ?_⟩
        intro i hi hr
        cases i with
        | zero => simpa using hfa
        | succ i => simpa using h2 i (by simpa using hi) (by simpa using hr)

theorem npIdx_valid {n : ℕ} {d : ℤ} (h : ValidIdx n d) : npIdx n d = .ok (atomOf n d) := by
  obtain ⟨h1, h2⟩ := h
  unfold npIdx atomOf
  by_cases hd : d < 0
  · rw [if_neg (by omega), if_pos ⟨hd, h1⟩, if_pos hd]
  · rw [if_pos ⟨by omega, h2⟩, if_neg hd]

theorem npIdx_invalid {n : ℕ} {d : ℤ} (h : ¬ ValidIdx n d) : npIdx n d = .error .indexError := by
  unfold ValidIdx at h
  unfold npIdx
  rw [if_neg (by omega), if_neg (by omega)]

theorem frames_length {α : Type} (F n : ℕ) (f : ℕ → ℕ → α) : (frames F n f).length = F := by simp [frames]

theorem frames_getD (F n : ℕ) (f : ℕ → ℕ → V3 K) {i j : ℕ} (hi : i < n) (hj : j < F) :
    ((frames F n f).getD j []).getD i 0 = f j i := by
  simp [frames, List.getD, hi, hj]

theorem cells_getD (F : ℕ) (L : ℕ → M3 K) {j : ℕ} (hj : j < F) : (cells F L).getD j 0 = L j := by
  simp [cells, List.getD, hj]

/-- Evaluation of `getDisp` on rectangular input with invertible cells. -/
theorem getDisp_frames (F n : ℕ) (hF : 0 < F) (f : ℕ → ℕ → V3 K) (L : ℕ → M3 K) (hL : ∀ j < F, det3 (L j) ≠ 0) :
    ∃ a : Arr3 K, getDisp (frames F n f) (cells F L) = .ok (triclinicTest (cells F L), a) ∧ a.n0 = n ∧ a.n1 = F - 1 ∧
      ∀ i < n, ∀ j < F - 1, ∀ l, a.get i j l =
        ∑ t ∈ Finset.range (j + 1), unwrapStep (f t i) (f (t + 1) i) (L t) (L (t + 1)) (invFun (L (t + 1))) l := by
  obtain ⟨F, rfl⟩ : ∃ G, F = G + 1 := ⟨F - 1, by omega⟩
  have hinv : (cells (F + 1) L).mapM inv3 = .ok ((cells (F + 1) L).map invFun) := by
    apply mapM_except_ok
    intro A hA
    simp only [cells, List.mem_map, List.mem_range] at hA
    obtain ⟨j, hj, rfl⟩ := hA
    exact inv3_ok (hL j hj)
  have hne : frames (F + 1) n f = (List.range n).map (f 0) :: (frames (F + 1) n f).tail := by
    simp [frames, List.range_succ_eq_map]
  set c0 := (List.range n).map (f 0) with hc0
  have hall : (frames (F + 1) n f).all (fun c => decide (c.length = c0.length)) = true := by
    simp [frames, hc0]
  have hlen : (frames (F + 1) n f).length = (cells (F + 1) L).length := by simp [frames, cells]
  unfold getDisp
  rw [hne]
  dsimp only
  rw [← hne, hall, if_pos rfl, hinv]
  simp only [bind, Except.bind]
  rw [if_neg (by simp [hlen])]
  refine ⟨_, rfl, by simp [hc0], by simp [frames], ?_⟩
  intro i hi j hj l
  dsimp only
  apply Finset.sum_congr rfl
  intro t ht
  have ht' : t < j + 1 := Finset.mem_range.1 ht
  rw [frames_getD _ _ _ hi (by omega), frames_getD _ _ _ hi (by omega), cells_getD _ _ (by omega),
    cells_getD _ _ (by omega)]
  congr 1
  simp [cells, List.getD, show t + 1 < F + 1 by omega]

theorem vm_eq_cart (L : M3 K) (s : V3 K) : vm s L = cart L s := rfl

theorem cart_sub (L : M3 K) (s t : V3 K) (l : Fin 3) : cart L (fun k => s k - t k) l = cart L s l - cart L t l := by
  simp only [cart, Fin.sum_univ_three]; ring

theorem cart_add (L : M3 K) (s t : V3 K) (l : Fin 3) : cart L (fun k => s k + t k) l = cart L s l + cart L t l := by
  simp only [cart, Fin.sum_univ_three]; ring

theorem cart_inj {L : M3 K} (h : det3 L ≠ 0) {s t : V3 K} (hst : cart L s = cart L t) : s = t := by
  have := congrArg (fun v => vm v (invFun L)) hst
  simpa only [← vm_eq_cart, vm_inv_left h] using this

/-- The model's step is a minimum image of the raw Cartesian step in the later cell. -/
theorem minImage_unwrapStep (a b : V3 K) (La Lb : M3 K) (h : det3 Lb ≠ 0) :
    MinImage Lb (fun l => cart Lb b l - cart La a l) (unwrapStep a b La Lb (invFun Lb)) := by
  set raw : V3 K := fun l => cart Lb b l - cart La a l with hraw
  set q : V3 K := vm raw (invFun Lb) with hq
  have hrawq : raw = cart Lb q := by rw [hq, ← vm_eq_cart, vm_inv_right h]
  have hstep : unwrapStep a b La Lb (invFun Lb) = fun l => raw l - cart Lb (fun k => ((⌊q k + 1 / 2⌋ : ℤ) : K)) l := rfl
  refine ⟨⟨fun k => ⌊q k + 1 / 2⌋, fun l => by rw [hstep]⟩, fun k => q k - ((⌊q k + 1 / 2⌋ : ℤ) : K), ?_, ?_⟩
  · intro k
    have h1 := Int.floor_le (q k + 1 / 2)
    have h2 := Int.lt_floor_add_one (q k + 1 / 2)
    constructor <;> linarith
  · rw [hstep]
    funext l
    rw [cart_sub, ← hrawq]

/-- The minimum image is unique. -/
theorem minImage_unique {L : M3 K} (h : det3 L ≠ 0) {raw d e : V3 K} (hd : MinImage L raw d) (he : MinImage L raw e) :
    d = e := by
  obtain ⟨⟨m, hm⟩, s, hs, rfl⟩ := hd
  obtain ⟨⟨m', hm'⟩, s', hs', rfl⟩ := he
  have key : cart L (fun k => s k - s' k) = cart L (fun k => ((m' k : K) - (m k : K))) := by
    funext l
    rw [cart_sub, cart_sub, hm, hm']; ring
  have hk := cart_inj h key
  have : s = s' := by
    funext k
    have e1 := congrFun hk k
    have e2 : s k - s' k = ((m' k - m k : ℤ) : K) := by push_cast; exact e1
    have b1 := hs k
    have b2 := hs' k
    have l1 : ((m' k - m k : ℤ) : K) < 1 := by rw [← e2]; linarith
    have l2 : (-1 : K) < ((m' k - m k : ℤ) : K) := by rw [← e2]; linarith
    have l1' : (m' k - m k : ℤ) < 1 := by exact_mod_cast l1
    have l2' : (-1 : ℤ) < (m' k - m k : ℤ) := by exact_mod_cast l2
    have : (m' k - m k : ℤ) = 0 := by omega
    rw [this] at e2
    simp at e2
    linarith
  rw [this]

/-- In one fixed cell, a step of a wrapped path is the true step if the true step is in the half cell. -/
theorem unwrapStep_fixed (L : M3 K) (h : det3 L ≠ 0) (u v : V3 K) (m m' : Fin 3 → ℤ) (huv : HalfCell fun k => v k - u k) :
    unwrapStep (fun k => u k + m k) (fun k => v k + m' k) L L (invFun L) = cart L (fun k => v k - u k) := by
  apply minImage_unique h (minImage_unwrapStep _ _ L L h)
  refine ⟨⟨fun k => m' k - m k, fun l => ?_⟩, _, huv, rfl⟩
  simp only [cart, Fin.sum_univ_three]
  push_cast
  ring

theorem sum_range_tele (g : ℕ → K) (j : ℕ) : ∑ t ∈ Finset.range (j + 1), (g (t + 1) - g t) = g (j + 1) - g 0 :=
  Finset.sum_range_sub g (j + 1)

end Kinisi
