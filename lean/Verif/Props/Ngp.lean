import Verif.Props.Observables
import Mathlib.Algebra.Order.Chebyshev

/-!
# C35, C36: the non-Gaussian parameter
-/

set_option linter.unusedSectionVars false
set_option linter.unusedVariables false

namespace Kinisi
open Spec
variable {K : Type} [Field K] [LinearOrder K] [IsStrictOrderedRing K] [FloorRing K] {G : Type}

/-! ## C35 -/

theorem ngpCalculation_dSquared {axes : List (Fin 3)} (hn : axes.Nodup) (a : Arr3 K) (h : 2 ≤ a.n0 * a.n1) :
    ngpCalculation (dSquared axes a) =
      if ∀ p ∈ pairs a, sqLen axes.toFinset a p = 0 then none
      else some (ngp (pairs a) (sqLen axes.toFinset a)) := by
  have hcard : ((pairs a).card : K) ≠ 0 := by rw [pairs_card]; exact_mod_cast (by omega : a.n0 * a.n1 ≠ 0)
  have h2 : npMean ((dSquared axes a).map fun x => x * x) = some (meanOn (pairs a) fun p => sqLen axes.toFinset a p ^ 2) := by
    rw [npMean_eq (by rw [List.length_map, dSquared_length]; exact h), List.length_map, dSquared_length,
      dSquared_map_sum hn, meanOn, pairs_card]
    simp only [sq]
  unfold ngpCalculation
  rw [h2, npMean_dSquared hn a h]
  simp only [Option.map_some, npDiv, Option.bind_some]
  have hz : meanOn (pairs a) (sqLen axes.toFinset a) ^ 2 * 5 = 0 ↔ ∀ p ∈ pairs a, sqLen axes.toFinset a p = 0 := by
    rw [mul_eq_zero, or_iff_left (by norm_num), pow_eq_zero_iff two_ne_zero, meanOn, div_eq_zero_iff, or_iff_left hcard]
    exact Finset.sum_eq_zero_iff_of_nonneg fun p _ => Finset.sum_nonneg fun x _ => sq_nonneg _
  by_cases hc : ∀ p ∈ pairs a, sqLen axes.toFinset a p = 0
  · rw [if_pos (hz.mpr hc), if_pos hc]; rfl
  · rw [if_neg (fun hh => hc (hz.mp hh)), if_neg hc]
    simp only [Option.map_some, ngp, Option.some.injEq]
    rw [mul_comm _ (3 : K), mul_comm _ (5 : K)]

/-- **C35, value.** Entry `i` is the non-Gaussian parameter of the squared displacements of interval `i`; it is nan exactly when
they all vanish. -/
theorem C35_ngp_value (sq : K → K) (o : Oracle K G) (opt : BootOpts K) (g g' : G) (deltaT : List K)
    (disp : List (Arr3 K)) (nO : List K) (sub : ℤ) (d : String) (b : Boot K)
    (h : msdBootstrap sq o opt g deltaT disp nO sub d = .ok (b, g')) :
    ∃ ds, pyStride sub disp = .ok ds ∧ ∀ i < b.ngp.length, ∃ a, ds[i]? = some a ∧
      b.ngp[i]? = some (if ∀ p ∈ pairs a, sqLen (axesOf d) a p = 0 then none else some (ngp (pairs a) (sqLen (axesOf d) a))) := by
  obtain ⟨b0, P, hb0, hP, hrec, hskip, -⟩ := msdBootstrap_inv h
  obtain ⟨ds, dts, sel, d0, h1, h2, h3, h4, rfl⟩ := bootInit_inv hb0
  obtain ⟨hn, hA, -⟩ := dimensionSlice_axes h3
  refine ⟨ds, h1, ?_⟩
  intro i hi
  rw [hrec.lg] at hi
  obtain ⟨a, l, m, w, t, e1, e2, e3, e4, e5, e6, e7, e8, e9, e10, e11⟩ := hrec.entry i hi
  obtain rfl := Except.ok.inj e2
  dsimp only at e1 e3 e9
  rw [dSquared_length] at e3
  refine ⟨a, e1, ?_⟩
  rw [e9, ngpCalculation_dSquared hn a e3, hA]

theorem sum_pos_of_not_zero {ι : Type} {S : Finset ι} {f : ι → K} (hf : ∀ p ∈ S, 0 ≤ f p) (h0 : ¬ ∀ p ∈ S, f p = 0) :
    0 < ∑ p ∈ S, f p := by
  rcases (Finset.sum_nonneg hf).lt_or_eq with h | h
  · exact h
  · exact absurd ((Finset.sum_eq_zero_iff_of_nonneg hf).mp h.symm) h0

/-- The non-Gaussian parameter in terms of sums. -/
theorem ngp_eq {ι : Type} {S : Finset ι} {f : ι → K} (hf : ∀ p ∈ S, 0 ≤ f p) (h0 : ¬ ∀ p ∈ S, f p = 0) :
    ngp S f + 2 / 5 = 3 / 5 * (((S.card : K) * ∑ p ∈ S, f p ^ 2 - (∑ p ∈ S, f p) ^ 2) / (∑ p ∈ S, f p) ^ 2) := by
  have hs := sum_pos_of_not_zero hf h0
  have hcard : (S.card : K) ≠ 0 := by
    intro hc
    have : S = ∅ := by simpa using hc
    subst this
    simp at hs
  unfold ngp meanOn
  field_simp
  ring

theorem variance_identity {ι : Type} (S : Finset ι) (f : ι → K) :
    (S.card : K) * ((S.card : K) * ∑ p ∈ S, f p ^ 2 - (∑ p ∈ S, f p) ^ 2) = ∑ p ∈ S, ((S.card : K) * f p - ∑ q ∈ S, f q) ^ 2 := by
  have : ∀ p ∈ S, ((S.card : K) * f p - ∑ q ∈ S, f q) ^ 2 =
      (S.card : K) ^ 2 * f p ^ 2 - 2 * (S.card : K) * (∑ q ∈ S, f q) * f p + (∑ q ∈ S, f q) ^ 2 := fun p _ => by ring
  rw [Finset.sum_congr rfl this, Finset.sum_add_distrib, Finset.sum_sub_distrib, ← Finset.mul_sum, ← Finset.mul_sum,
    Finset.sum_const, nsmul_eq_mul]
  ring

/-- **C35, bound.** For non-negative values that are not all zero the parameter is at least -2/5, with equality exactly when all
values are equal. -/
theorem C35_ngp_bound {ι : Type} (S : Finset ι) (f : ι → K) (hf : ∀ p ∈ S, 0 ≤ f p) (h0 : ¬ ∀ p ∈ S, f p = 0) :
    -(2 / 5) ≤ ngp S f ∧ (ngp S f = -(2 / 5) ↔ ∀ p ∈ S, ∀ q ∈ S, f p = f q) := by
  have hs := sum_pos_of_not_zero hf h0
  have he := ngp_eq hf h0
  have hc : (0 : K) < (S.card : K) := by
    have : S.Nonempty := by
      by_contra hne
      rw [Finset.not_nonempty_iff_eq_empty] at hne
      subst hne
      simp at hs
    exact_mod_cast Finset.card_pos.mpr this
  have hid := variance_identity S f
  have hnn : 0 ≤ (S.card : K) * ∑ p ∈ S, f p ^ 2 - (∑ p ∈ S, f p) ^ 2 := by
    have : 0 ≤ (S.card : K) * ((S.card : K) * ∑ p ∈ S, f p ^ 2 - (∑ p ∈ S, f p) ^ 2) := by
      rw [hid]; exact Finset.sum_nonneg fun p _ => sq_nonneg _
    exact nonneg_of_mul_nonneg_right this hc
  constructor
  · have : 0 ≤ 3 / 5 * (((S.card : K) * ∑ p ∈ S, f p ^ 2 - (∑ p ∈ S, f p) ^ 2) / (∑ p ∈ S, f p) ^ 2) := by positivity
    linarith
  · have h1 : ngp S f = -(2 / 5) ↔ (S.card : K) * ∑ p ∈ S, f p ^ 2 - (∑ p ∈ S, f p) ^ 2 = 0 := by
      have h2 : ngp S f = -(2 / 5) ↔ ngp S f + 2 / 5 = 0 := by constructor <;> intro h <;> linarith
      rw [h2, he, mul_eq_zero, or_iff_right (by norm_num), div_eq_zero_iff, or_iff_left (pow_ne_zero 2 hs.ne')]
    rw [h1]
    constructor
    · intro hz p hp q hq
      rw [hz, mul_zero] at hid
      have hall := (Finset.sum_eq_zero_iff_of_nonneg (fun p _ => sq_nonneg ((S.card : K) * f p - ∑ q ∈ S, f q))).mp hid.symm
      have hp' := pow_eq_zero_iff (two_ne_zero) |>.mp (hall p hp)
      have hq' := pow_eq_zero_iff (two_ne_zero) |>.mp (hall q hq)
      have : (S.card : K) * f p = (S.card : K) * f q := by linarith
      exact mul_left_cancel₀ hc.ne' this
    · intro hall
      have : (S.card : K) * ((S.card : K) * ∑ p ∈ S, f p ^ 2 - (∑ p ∈ S, f p) ^ 2) = 0 := by
        rw [hid]
        apply Finset.sum_eq_zero
        intro p hp
        have : ∑ q ∈ S, f q = (S.card : K) * f p := by
          rw [Finset.sum_congr rfl (fun q hq => hall q hq p hp), Finset.sum_const, nsmul_eq_mul]
        rw [this]; ring
      exact (mul_eq_zero.mp this).resolve_left hc.ne'

/-- **C35, scale invariance.** Multiplying all lengths by `c ≠ 0` leaves every entry unchanged (also a nan). -/
theorem C35_ngp_scale (d : List K) (c : K) (hc : c ≠ 0) : ngpCalculation (d.map fun x => c ^ 2 * x) = ngpCalculation d := by
  unfold ngpCalculation
  have h1 : npMean ((d.map fun x => c ^ 2 * x).map fun x => x * x) = (npMean (d.map fun x => x * x)).map fun m => c ^ 4 * m := by
    unfold npMean
    simp only [List.length_map, List.map_map, Function.comp_def]
    by_cases h : d.length = 0
    · rw [if_pos h, if_pos h]; rfl
    · rw [if_neg h, if_neg h]
      simp only [Option.map_some, Option.some.injEq]
      rw [← mul_div_assoc, ← List.sum_map_mul_left]
      congr 3
      funext x
      ring
  have h2 : npMean (d.map fun x => c ^ 2 * x) = (npMean d).map fun m => c ^ 2 * m := by
    unfold npMean
    simp only [List.length_map]
    by_cases h : d.length = 0
    · rw [if_pos h, if_pos h]; rfl
    · rw [if_neg h, if_neg h]
      simp only [Option.map_some, Option.some.injEq]
      rw [← mul_div_assoc, List.sum_map_mul_left, List.map_id']
  rw [h1, h2]
  cases npMean (d.map fun x => x * x) with
  | none => rfl
  | some m =>
  cases npMean d with
  | none => rfl
  | some m' =>
  simp only [Option.map_some, npDiv, Option.bind_some]
  by_cases hm : m' ^ 2 * 5 = 0
  · have : (c ^ 2 * m') ^ 2 * 5 = 0 := by
      have : m' = 0 := by simpa using hm
      rw [this]; ring
    rw [if_pos hm, if_pos this]
  · have hne : (c ^ 2 * m') ^ 2 * 5 ≠ 0 := by
      have : m' ≠ 0 := fun h => hm (by rw [h]; ring)
      positivity
    rw [if_neg hm, if_neg hne]
    simp only [Option.map_some, Option.some.injEq]
    have hm' : m' ≠ 0 := fun h => hm (by rw [h]; ring)
    field_simp

/-- Values 1, 4: `3 · 8.5 / (5 · 6.25) - 1 = -23/125`; all zero: nan. -/
example : ngpCalculation [(1 : ℚ), 4] = some (-(23 / 125)) ∧ ngpCalculation [(0 : ℚ), 0] = none := by decide +kernel

example : (∀ p ∈ Finset.range 2, (0 : ℚ) ≤ (p : ℚ)) ∧ ¬ ∀ p ∈ Finset.range 2, (p : ℚ) = 0 :=
  ⟨fun p _ => Nat.cast_nonneg p, fun h => by have := h 1 (by simp); norm_num at this⟩

/-! ## C36 -/

theorem argmaxFrom_spec (best : K) (bi i : ℕ) (hbi : bi < i) (xs : List K) :
    (argmaxFrom (some best) bi i (xs.map some) = bi ∧ ∀ y ∈ xs, y ≤ best) ∨
    (∃ j x, xs[j]? = some x ∧ argmaxFrom (some best) bi i (xs.map some) = i + j ∧ best < x ∧ (∀ y ∈ xs, y ≤ x) ∧
      ∀ k < j, ∀ y, xs[k]? = some y → y < x) := by
  induction xs generalizing best bi i with
  | nil => left; exact ⟨rfl, by simp⟩
  | cons x xs ih =>
    simp only [List.map_cons, argmaxFrom]
    by_cases hlt : best < x
    · rw [if_pos (show argmaxLess (some best) (some x) = true by simpa [argmaxLess] using hlt)]
      right
      rcases ih x i (i + 1) (by omega) with ⟨h1, h2⟩ | ⟨j, z, h1, h2, h3, h4, h5⟩
      · refine ⟨0, x, rfl, by rw [h1]; rfl, hlt, ?_, by omega⟩
        intro y hy
        rcases List.mem_cons.mp hy with rfl | hy
        · exact le_refl _
        · exact h2 y hy
      · refine ⟨j + 1, z, by simpa using h1, by rw [h2]; omega, hlt.trans h3, ?_, ?_⟩
        · intro y hy
          rcases List.mem_cons.mp hy with rfl | hy
          · exact h3.le
          · exact h4 y hy
        · intro k hk y hy
          cases k with
          | zero => simp at hy; subst hy; exact h3
          | succ k => exact h5 k (by omega) y (by simpa using hy)
    · rw [if_neg (show ¬ argmaxLess (some best) (some x) = true by simpa [argmaxLess] using hlt)]
      rcases ih best bi (i + 1) (by omega) with ⟨h1, h2⟩ | ⟨j, z, h1, h2, h3, h4, h5⟩
      · left
        refine ⟨h1, ?_⟩
        intro y hy
        rcases List.mem_cons.mp hy with rfl | hy
        · exact not_lt.mp hlt
        · exact h2 y hy
      · right
        refine ⟨j + 1, z, by simpa using h1, by rw [h2]; omega, h3, ?_, ?_⟩
        · intro y hy
          rcases List.mem_cons.mp hy with rfl | hy
          · exact (not_lt.mp hlt).trans h3.le
          · exact h4 y hy
        · intro k hk y hy
          cases k with
          | zero => simp at hy; subst hy; exact lt_of_le_of_lt (not_lt.mp hlt) h3
          | succ k => exact h5 k (by omega) y (by simpa using hy)

/-- **C36, what holds.** When no interval has a nan parameter, `ngp_max` is the `dt` of the first interval where the parameter is largest.
`xs` are the values of the parameter.  Missing: the same with nan entries, see `C36_violated`. -/
theorem C36_ngp_max_partial (b : Boot K) (xs : List K) (hx : b.ngp = xs.map some) (hne : xs ≠ [])
    (hdt : b.dt.length = b.ngp.length) :
    ∃ (i : ℕ) (x t : K), ngpMax b = .ok t ∧ b.dt[i]? = some t ∧ xs[i]? = some x ∧ (∀ y ∈ xs, y ≤ x) ∧
      ∀ k < i, ∀ y, xs[k]? = some y → y < x := by
  obtain ⟨x0, rest, rfl⟩ := List.exists_cons_of_ne_nil hne
  have hlen : b.dt.length = rest.length + 1 := by rw [hdt, hx]; simp
  unfold ngpMax
  rw [hx]
  simp only [List.map_cons, npArgmax, bind, Except.bind]
  rcases argmaxFrom_spec x0 0 1 (by omega) rest with ⟨h1, h2⟩ | ⟨j, z, h1, h2, h3, h4, h5⟩
  · rw [h1]
    refine ⟨0, x0, b.dt[0], pyGet_ok (List.getElem?_eq_getElem (by omega)), List.getElem?_eq_getElem (by omega), rfl, ?_, by omega⟩
    intro y hy
    rcases List.mem_cons.mp hy with rfl | hy
    · exact le_refl _
    · exact h2 y hy
  · have hj : j < rest.length := by
      by_contra hc
      rw [List.getElem?_eq_none (by omega)] at h1
      cases h1
    rw [h2]
    refine ⟨1 + j, z, b.dt[1 + j], pyGet_ok (List.getElem?_eq_getElem (by omega)), List.getElem?_eq_getElem (by omega), ?_, ?_, ?_⟩
    · rw [show 1 + j = j + 1 by omega]; simpa using h1
    · intro y hy
      rcases List.mem_cons.mp hy with rfl | hy
      · exact h3.le
      · exact h4 y hy
    · intro k hk y hy
      cases k with
      | zero => simp at hy; subst hy; exact h3
      | succ k => exact h5 k (by omega) y (by simpa using hy)

/-- An atom that has moved back to where it was in every window of the second interval. -/
def exStill : Arr3 ℚ := ⟨1, 2, fun _ _ => 0⟩

/-- **C36 is violated** with a nan: the parameter is -23/125 for the interval of length 1 and nan for the interval of length 2, where the atom has
not moved; `ngp_max` is 2. -/
theorem C36_violated : ∃ b,
    msdBootstrap id (exOracle ℚ) (exOpts ℚ) () [1, 2] [exArr ℚ 2, exStill] [2, 1] 1 "x" = .ok (b, ()) ∧
    b.ngp = [some (-(23 / 125)), none] ∧ b.dt = [1, 2] ∧ ngpMax b = .ok 2 := by
  have h1 : (msdBootstrap id (exOracle ℚ) (exOpts ℚ) () [1, 2] [exArr ℚ 2, exStill] [2, 1] 1 "x").toOption.map
      (fun r => (r.1.ngp, r.1.dt, (ngpMax r.1).toOption)) = some ([some (-(23 / 125)), none], [1, 2], some 2) := by decide +kernel
  cases h : msdBootstrap id (exOracle ℚ) (exOpts ℚ) () [1, 2] [exArr ℚ 2, exStill] [2, 1] 1 "x" with
  | error e => rw [h] at h1; cases h1
  | ok r =>
    rw [h] at h1
    simp only [Except.toOption, Option.map_some, Option.some.injEq, Prod.mk.injEq] at h1
    refine ⟨r.1, rfl, h1.1, h1.2.1, ?_⟩
    have := h1.2.2
    cases hm : ngpMax r.1 with
    | error e => rw [hm] at this; cases this
    | ok t => rw [hm] at this; exact congrArg _ (Option.some.inj this)

/-- Two equal maxima: the earlier one. -/
example : (npArgmax [some (1 : ℚ), some 3, some 3, some 2]).toOption = some 1 := by decide +kernel

/-- `C35_ngp_value`, `C35_ngp_bound` and `C36_ngp_max_partial` for two moving intervals. -/
example : ∃ b : Boot ℚ, msdBootstrap id (exOracle ℚ) (exOpts ℚ) () [1, 2] [exArr ℚ 3, exArr ℚ 2] [2, 1] 1 "x" = .ok (b, ()) ∧
    (∃ ds, pyStride 1 [exArr ℚ 3, exArr ℚ 2] = .ok ds ∧ ∀ i < b.ngp.length, ∃ a, ds[i]? = some a ∧
      b.ngp[i]? = some (if ∀ p ∈ pairs a, sqLen (axesOf "x") a p = 0 then none else some (ngp (pairs a) (sqLen (axesOf "x") a)))) ∧
    -(2 / 5) ≤ ngp (Finset.range 2) (fun p => (p : ℚ)) ∧ ∃ t, ngpMax b = .ok t := by
  have h1 : (msdBootstrap id (exOracle ℚ) (exOpts ℚ) () [1, 2] [exArr ℚ 3, exArr ℚ 2] [2, 1] 1 "x").toOption.map
      (fun r => (r.1.ngp, r.1.dt)) = some ([(-(1 / 10) : ℚ), -(23 / 125)].map some, [1, 2]) := by decide +kernel
  cases h : msdBootstrap id (exOracle ℚ) (exOpts ℚ) () [1, 2] [exArr ℚ 3, exArr ℚ 2] [2, 1] 1 "x" with
  | error e => rw [h] at h1; cases h1
  | ok r =>
    rw [h] at h1
    simp only [Except.toOption, Option.map_some, Option.some.injEq, Prod.mk.injEq] at h1
    obtain ⟨i, x, t, ht, -⟩ := C36_ngp_max_partial r.1 _ h1.1 (by simp) (by rw [h1.1, h1.2]; rfl)
    exact ⟨r.1, rfl, C35_ngp_value id _ _ () () _ _ _ 1 "x" r.1 h,
      (C35_ngp_bound (Finset.range 2) (fun p => (p : ℚ)) (fun p _ => Nat.cast_nonneg p)
        (fun h => by have := h 1 (by simp); norm_num at this)).1, t, ht⟩

end Kinisi
