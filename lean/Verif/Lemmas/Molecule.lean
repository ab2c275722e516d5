import Verif.Lemmas.Disp
import Verif.Model.Select
import Verif.Spec.Molecule
import Mathlib.Analysis.SpecialFunctions.Trigonometric.Basic
import Mathlib.Algebra.Order.Round

set_option linter.unusedSectionVars false

namespace Kinisi
open Spec

/-- Weighted sum over a list of (position, weight) pairs. -/
noncomputable def wsum (l : List (ℝ × ℝ)) (g : ℝ → ℝ) : ℝ := (l.map fun p => g p.1 * p.2).sum

theorem wsum_lin (l : List (ℝ × ℝ)) (g h : ℝ → ℝ) (a b : ℝ) :
    wsum l (fun x => a * g x + b * h x) = a * wsum l g + b * wsum l h := by
  induction l with
  | nil => simp [wsum]
  | cons p l ih =>
    simp only [wsum, List.map_cons, List.sum_cons] at ih ⊢
    rw [ih]; ring

theorem wsum_const (l : List (ℝ × ℝ)) (c : ℝ) : wsum l (fun _ => c) = c * (l.map Prod.snd).sum := by
  induction l with
  | nil => simp [wsum]
  | cons p l ih =>
    simp only [wsum, List.map_cons, List.sum_cons] at ih ⊢
    rw [ih]; ring

theorem wsum_congr (l : List (ℝ × ℝ)) (g h : ℝ → ℝ) (hgh : ∀ p ∈ l, g p.1 = h p.1) : wsum l g = wsum l h := by
  unfold wsum
  congr 1
  apply List.map_congr_left
  intro p hp
  rw [hgh p hp]

theorem wsum_pos (l : List (ℝ × ℝ)) (hl : l ≠ []) (g : ℝ → ℝ) (hg : ∀ p ∈ l, 0 < g p.1) (hw : ∀ p ∈ l, 0 < p.2) : 0 < wsum l g := by
  unfold wsum
  apply List.sum_pos
  · intro x hx
    obtain ⟨p, hp, rfl⟩ := List.mem_map.1 hx
    exact mul_pos (hg p hp) (hw p hp)
  · simpa using hl

theorem snd_sum_pos (l : List (ℝ × ℝ)) (hl : l ≠ []) (hw : ∀ p ∈ l, 0 < p.2) : 0 < (l.map Prod.snd).sum := by
  apply List.sum_pos
  · intro x hx
    obtain ⟨p, hp, rfl⟩ := List.mem_map.1 hx
    exact hw p hp
  · simpa using hl

/-- A positive cosine places the angle within a quarter turn of a whole turn. -/
theorem near_integer_of_cos_pos {t : ℝ} (h : 0 < Real.cos (2 * Real.pi * t)) : ∃ k : ℤ, |t - k| < 1 / 4 := by
  refine ⟨round t, ?_⟩
  by_contra hc
  push Not at hc
  have h2 : |t - round t| ≤ 1 / 2 := abs_sub_round t
  have hcos : Real.cos (2 * Real.pi * t) = Real.cos (2 * Real.pi * |t - round t|) := by
    have e : Real.cos (2 * Real.pi * |t - round t|) = Real.cos (2 * Real.pi * (t - round t)) := by
      rcases abs_cases (t - round t) with ⟨h, _⟩ | ⟨h, _⟩
      · rw [h]
      · rw [h, mul_neg, Real.cos_neg]
    rw [e, mul_sub, show 2 * Real.pi * (round t : ℝ) = (round t : ℝ) * (2 * Real.pi) by ring, Real.cos_sub_int_mul_two_pi]
  have hp := Real.pi_pos
  have : Real.cos (2 * Real.pi * |t - round t|) ≤ 0 :=
    Real.cos_nonpos_of_pi_div_two_le_of_le (by nlinarith) (by nlinarith)
  linarith

theorem cos_pos_of_small {d : ℝ} (h : |d| < 1 / 4) : 0 < Real.cos (2 * Real.pi * d) := by
  have hp := Real.pi_pos
  obtain ⟨h1, h2⟩ := abs_lt.1 h
  apply Real.cos_pos_of_mem_Ioo
  constructor <;> nlinarith

theorem mod1_eq {x y : ℝ} (k : ℤ) (h : x = y + k) (h0 : 0 ≤ y) (h1 : y < 1) : mod1 x = y := by
  unfold mod1
  have : ⌊x⌋ = k := by rw [Int.floor_eq_iff]; constructor <;> linarith
  rw [this]; linarith

theorem mod1_add_int (x : ℝ) (k : ℤ) : mod1 (x + k) = mod1 x := by
  unfold mod1; rw [Int.floor_add_intCast]; push_cast; ring

theorem mod1_range (x : ℝ) : 0 ≤ mod1 x ∧ mod1 x < 1 := by
  unfold mod1
  exact ⟨by linarith [Int.floor_le x], by linarith [Int.lt_floor_add_one x]⟩

/-- The circular mean angle of the model points in the direction of the mean vector. -/
theorem circular_mean (xi ze : ℝ) :
    let th := Complex.arg ⟨-xi, -ze⟩ + Real.pi
    ∃ ρ : ℝ, 0 ≤ ρ ∧ xi = ρ * Real.cos th ∧ ze = ρ * Real.sin th := by
  intro th
  refine ⟨‖(⟨-xi, -ze⟩ : ℂ)‖, norm_nonneg _, ?_, ?_⟩
  · have := Complex.norm_mul_cos_arg (⟨-xi, -ze⟩ : ℂ)
    simp only [th, Real.cos_add_pi]
    simp only at this
    linarith
  · have := Complex.norm_mul_sin_arg (⟨-xi, -ze⟩ : ℂ)
    simp only [th, Real.sin_add_pi]
    simp only at this
    linarith

/-- Core of the pseudo centre of mass: `l` are (stored position, weight) pairs, `mid` the centre of the cluster, `dl` the
offset of a stored position from `mid` after removing the image. -/
theorem centre_core (l : List (ℝ × ℝ)) (hl : l ≠ []) (hw : ∀ p ∈ l, 0 < p.2) (mid : ℝ) (dl : ℝ → ℝ)
    (hdl : ∀ p ∈ l, |dl p.1| < 1 / 4 ∧ ∃ k : ℤ, p.1 = mid + dl p.1 + k) :
    let W := (l.map Prod.snd).sum
    let xi := wsum l (fun x => Real.cos (x * (2 * Real.pi))) / W
    let ze := wsum l (fun x => Real.sin (x * (2 * Real.pi))) / W
    let c := (Complex.arg ⟨-xi, -ze⟩ + Real.pi) / (2 * Real.pi)
    mod1 (wsum l (fun x => mod1 (x - (c + 1 / 2))) / W + (c + 1 / 2)) = mod1 (mid + wsum l dl / W) := by
  intro W xi ze c
  have hW : 0 < W := snd_sum_pos l hl hw
  obtain ⟨ρ, hρ, hxi, hze⟩ := circular_mean xi ze
  have hpi := Real.pi_pos
  have hc : Complex.arg ⟨-xi, -ze⟩ + Real.pi = c * (2 * Real.pi) := by simp only [c]; field_simp
  rw [hc] at hxi hze
  have hpos : 0 < wsum l (fun x => Real.cos (2 * Real.pi * (x - mid))) := by
    apply wsum_pos l hl _ _ hw
    intro p hp
    obtain ⟨h1, k, hk⟩ := hdl p hp
    have e : 2 * Real.pi * (p.1 - mid) = 2 * Real.pi * dl p.1 + (k : ℝ) * (2 * Real.pi) := by
      have : p.1 - mid = dl p.1 + k := by linarith
      rw [this]; ring
    rw [e, Real.cos_add_int_mul_two_pi]
    exact cos_pos_of_small h1
  have hexp : wsum l (fun x => Real.cos (2 * Real.pi * (x - mid))) = W * (ρ * Real.cos (2 * Real.pi * (c - mid))) := by
    have e1 : wsum l (fun x => Real.cos (2 * Real.pi * (x - mid))) =
        wsum l (fun x => Real.cos (2 * Real.pi * mid) * Real.cos (x * (2 * Real.pi)) + Real.sin (2 * Real.pi * mid) * Real.sin (x * (2 * Real.pi))) := by
      apply wsum_congr
      intro p _
      have : 2 * Real.pi * (p.1 - mid) = p.1 * (2 * Real.pi) - 2 * Real.pi * mid := by ring
      rw [this, Real.cos_sub]; ring
    have e2 : wsum l (fun x => Real.cos (x * (2 * Real.pi))) = W * xi := by simp only [xi]; rw [mul_div_assoc', mul_div_cancel_left₀ _ hW.ne']
    have e3 : wsum l (fun x => Real.sin (x * (2 * Real.pi))) = W * ze := by simp only [ze]; rw [mul_div_assoc', mul_div_cancel_left₀ _ hW.ne']
    have e4 : 2 * Real.pi * (c - mid) = c * (2 * Real.pi) - 2 * Real.pi * mid := by ring
    rw [e1, wsum_lin, e2, e3, e4, Real.cos_sub]
    generalize Real.cos (c * (2 * Real.pi)) = C at *
    generalize Real.sin (c * (2 * Real.pi)) = S at *
    rw [hxi, hze]; ring
  rw [hexp] at hpos
  have hcos : 0 < Real.cos (2 * Real.pi * (c - mid)) := by
    by_contra hcon
    push Not at hcon
    have : W * (ρ * Real.cos (2 * Real.pi * (c - mid))) ≤ 0 :=
      mul_nonpos_of_nonneg_of_nonpos hW.le (mul_nonpos_of_nonneg_of_nonpos hρ hcon)
    linarith
  obtain ⟨k, hk⟩ := near_integer_of_cos_pos hcos
  obtain ⟨hk1, hk2⟩ := abs_lt.1 hk
  have hrec : wsum l (fun x => mod1 (x - (c + 1 / 2))) = wsum l (fun x => 1 * dl x + 1 * (fun _ => 1 / 2 - (c - mid - k)) x) := by
    apply wsum_congr
    intro p hp
    obtain ⟨h1, j, hj⟩ := hdl p hp
    obtain ⟨h1a, h1b⟩ := abs_lt.1 h1
    refine mod1_eq (j - k - 1) ?_ ?_ ?_
    · push_cast; linarith
    · simp only; linarith
    · simp only; linarith
  rw [hrec, wsum_lin, wsum_const]
  have : (1 * wsum l dl + 1 * ((1 / 2 - (c - mid - k)) * (l.map Prod.snd).sum)) / W + (c + 1 / 2)
      = (mid + wsum l dl / W) + ((k + 1 : ℤ) : ℝ) := by
    have hW' : (l.map Prod.snd).sum = W := rfl
    rw [hW']
    push_cast
    field_simp
    ring
  rw [this, mod1_add_int]

theorem compact_mid {y : List ℝ} (hy : y ≠ []) (hc : Compact y) : ∃ mid : ℝ, ∀ a ∈ y, |a - mid| < 1 / 4 := by
  have hne : y.toFinset.Nonempty := by simpa using hy
  set M := y.toFinset.max' hne with hM
  set m := y.toFinset.min' hne with hm
  have hMy : M ∈ y := List.mem_toFinset.1 (Finset.max'_mem _ hne)
  have hmy : m ∈ y := List.mem_toFinset.1 (Finset.min'_mem _ hne)
  have hd := hc M hMy m hmy
  refine ⟨(M + m) / 2, fun a ha => ?_⟩
  have h1 : a ≤ M := Finset.le_max' _ a (List.mem_toFinset.2 ha)
  have h2 : m ≤ a := Finset.min'_le _ a (List.mem_toFinset.2 ha)
  rw [abs_lt]
  constructor <;> linarith

theorem round_small {d : ℝ} (h : |d| < 1 / 4) (k : ℤ) : round (d + k) = k := by
  rw [round_add_intCast]
  have : round d = 0 := by
    rw [round_eq_zero_iff]
    obtain ⟨h1, h2⟩ := abs_lt.1 h
    constructor <;> linarith
  rw [this, zero_add]

theorem zipWith_wsum (g : ℝ → ℝ) (x m : List ℝ) : (List.zipWith (· * ·) (x.map g) m).sum = wsum (x.zip m) g := by
  unfold wsum
  rw [List.zipWith_map_left]
  congr 1
  rw [List.zip, List.map_zipWith]

theorem zip_snd {x m : List ℝ} (h : m.length = x.length) : (x.zip m).map Prod.snd = m := by
  rw [List.map_snd_zip]; omega

theorem npAverage_some {m : List ℝ} (h : m.sum ≠ 0) (x : List ℝ) :
    npAverage (some m) x = .ok ((List.zipWith (· * ·) x m).sum / m.sum) := by
  simp [npAverage, h]

/-- Without masses the result is the one for unit masses. -/
theorem npAverage_none (x : List ℝ) (hx : x ≠ []) : npAverage none x = npAverage (some (List.replicate x.length 1)) x := by
  have hl : (x.length : ℝ) ≠ 0 := by
    have : 0 < x.length := List.length_pos_of_ne_nil hx
    exact_mod_cast this.ne'
  unfold npAverage
  simp only [List.sum_replicate, nsmul_eq_mul, mul_one]
  rw [if_neg hl]
  congr 2
  clear hl hx
  induction x with
  | nil => simp
  | cons a l ih => simp only [List.length_cons, List.replicate_succ, List.zipWith_cons_cons, List.sum_cons, mul_one, ih]

/-- `l` positions, `w` weights: the model's centre for a compact cluster. -/
theorem moleculeCentre_some (x y m : List ℝ) (hx : x ≠ []) (hlen : m.length = x.length) (hm : ∀ w ∈ m, 0 < w)
    (hc : Compact y) (hxy : SameImages x y) :
    moleculeCentre realTrig (some m) x = .ok (mod1 (wmean (some m) y)) := by
  have hlxy := hxy.length_eq
  have hy : y ≠ [] := by
    intro h
    rw [h] at hlxy
    exact hx (List.length_eq_zero_iff.1 (by simpa using hlxy))
  obtain ⟨mid, hmid⟩ := compact_mid hy hc
  set l := x.zip m with hl
  have hl0 : l ≠ [] := by
    intro h
    have : l.length = 0 := by rw [h]; rfl
    rw [hl, List.length_zip, hlen, min_self] at this
    exact hx (List.length_eq_zero_iff.1 this)
  have hw : ∀ p ∈ l, 0 < p.2 := fun p hp => hm _ (List.of_mem_zip (a := p.1) (b := p.2) hp).2
  have hW : (l.map Prod.snd).sum = m.sum := by rw [hl, zip_snd hlen]
  have hWpos := snd_sum_pos l hl0 hw
  rw [hW] at hWpos
  set dl : ℝ → ℝ := fun a => (a - mid) - round (a - mid) with hdl
  have hpt : ∀ a b : ℝ, b ∈ y → (∃ k : ℤ, a = b + k) → dl a = b - mid := by
    rintro a b hb ⟨k, rfl⟩
    have e : b + (k : ℝ) - mid = (b - mid) + k := by ring
    simp only [hdl, e]
    rw [round_small (hmid b hb) k]
    ring
  have hcore := centre_core l hl0 hw mid dl ?_
  · unfold moleculeCentre
    simp only [npAverage_some hWpos.ne', bind, Except.bind, List.map_map, realTrig]
    have e1 : (List.zipWith (· * ·) (x.map (Real.cos ∘ fun x => x * (2 * Real.pi))) m).sum = wsum l (fun x => Real.cos (x * (2 * Real.pi))) :=
      zipWith_wsum _ x m
    have e2 : (List.zipWith (· * ·) (x.map (Real.sin ∘ fun x => x * (2 * Real.pi))) m).sum = wsum l (fun x => Real.sin (x * (2 * Real.pi))) :=
      zipWith_wsum _ x m
    rw [e1, e2, zipWith_wsum]
    simp only [hW] at hcore
    congr 1
    refine hcore.trans ?_
    congr 1
    -- the weighted mean of the offsets
    have hsum : wsum l dl = ((y.zip m).map fun p => p.1 * p.2).sum - mid * m.sum := by
      rw [hl]
      clear hcore e1 e2 hl0 hw hW hWpos hl l hy hc hmid hm hx
      induction hxy generalizing m with
      | nil =>
        have : m = [] := List.length_eq_zero_iff.1 (by simpa using hlen)
        subst this; simp [wsum]
      | @cons a b x y hab hxy ih =>
        cases m with
        | nil => simp at hlen
        | cons w m =>
          have hrec := ih m (by simpa using hlen) (by simpa using hlxy) (fun a b hb => hpt a b (List.mem_cons_of_mem _ hb))
          simp only [wsum, List.zip_cons_cons, List.map_cons, List.sum_cons] at hrec ⊢
          rw [hrec, hpt a b (by simp) hab]
          ring
    rw [hsum]
    unfold wmean
    field_simp
    ring
  · intro p hp
    have hpx : p.1 ∈ x := (List.of_mem_zip (a := p.1) (b := p.2) hp).1
    obtain ⟨i, hi, hix⟩ := List.getElem_of_mem hpx
    have hfi := List.forall₂_iff_get.1 hxy
    have hk := hfi.2 i hi (by omega)
    simp only [List.get_eq_getElem, hix] at hk
    have hyi : y[i]'(by omega) ∈ y := List.getElem_mem _
    have hd := hpt p.1 _ hyi hk
    obtain ⟨k, hk⟩ := hk
    refine ⟨by rw [hd]; exact hmid _ hyi, k, ?_⟩
    rw [hd]; linarith

theorem moleculeCentre_none (x : List ℝ) (hx : x ≠ []) :
    moleculeCentre realTrig none x = moleculeCentre realTrig (some (List.replicate x.length 1)) x := by
  unfold moleculeCentre
  have h1 : ∀ f : ℝ → ℝ, npAverage none (x.map f) = npAverage (some (List.replicate x.length 1)) (x.map f) := by
    intro f
    have := npAverage_none (x.map f) (by simpa using hx)
    rwa [List.length_map] at this
  simp only [List.map_map, h1]

theorem wmean_none (y : List ℝ) : wmean (some (List.replicate y.length 1)) y = wmean none y := by
  unfold wmean
  simp only [List.sum_replicate, nsmul_eq_mul, mul_one]
  congr 1
  induction y with
  | nil => simp
  | cons a l ih => simp only [List.length_cons, List.replicate_succ, List.zip_cons_cons, List.map_cons, List.sum_cons, mul_one, ih]

end Kinisi
