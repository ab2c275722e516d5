import Verif.Model.VarFl
import Verif.Spec.VarFl
import Verif.Lemmas.MsdFl
import Mathlib.Tactic.LinearCombination

/-!
# Rounding errors of variances and of the non-Gaussian parameter
-/

set_option linter.unusedSectionVars false
set_option linter.unusedVariables false

namespace Kinisi
open Spec
variable {K : Type} [Field K] [LinearOrder K] [IsStrictOrderedRing K] [FloorRing K]

theorem varFl_id {ord : ℕ → SumOrder} (ho : ValidOrder ord) (l : List K) : varFl id ord l = npVar1 l := by
  unfold varFl npVar1
  split_ifs with h
  · rfl
  · have hl : l ≠ [] := by rintro rfl; simp at h
    simp only [sumFl_id ho hl, id]
    rw [sumFl_id ho (by simpa using hl), List.map_map]
    simp only [Function.comp_def, pow_two]

theorem ngpFl_id {ord : ℕ → SumOrder} (ho : ValidOrder ord) (l : List K) : ngpFl id ord l = ngpCalculation l := by
  unfold ngpFl ngpCalculation npMean npDiv
  by_cases h : l.length = 0
  · simp [h]
  · have hl : l ≠ [] := by rintro rfl; simp at h
    simp only [sumFl_id ho hl, id, if_neg h, List.length_map]
    rw [sumFl_id ho (by simpa using hl)]
    simp only [Option.map_some, Option.bind_some, pow_two]
    split_ifs <;> rfl

/-- `x` has relative error at most `p - 1`. -/
def Near (p x X : K) : Prop := 1 ≤ p ∧ 0 ≤ X ∧ |x - X| ≤ (p - 1) * X

theorem Near.refl {X : K} (h : 0 ≤ X) : Near 1 X X := ⟨le_rfl, h, by simp⟩

theorem Near.mono {p q x X : K} (h : Near p x X) (hpq : p ≤ q) : Near q x X :=
  ⟨le_trans h.1 hpq, h.2.1, le_trans h.2.2 (mul_le_mul_of_nonneg_right (by linarith) h.2.1)⟩

theorem Near.abs_le {p x X : K} (h : Near p x X) : |x| ≤ p * X := by
  have := abs_le_of_near h.2.2 (le_of_eq (abs_of_nonneg h.2.1))
  linarith

theorem Near.mul {p q x X y Y : K} (h : Near p x X) (h' : Near q y Y) : Near (p * q) (x * y) (X * Y) := by
  obtain ⟨hp, hX, hx⟩ := h
  obtain ⟨hq, hY, hy⟩ := h'
  refine ⟨by nlinarith, mul_nonneg hX hY, ?_⟩
  have hx' : |x| ≤ p * X := Near.abs_le ⟨hp, hX, hx⟩
  rw [show x * y - X * Y = x * (y - Y) + (x - X) * Y by ring]
  refine le_trans (abs_add_le _ _) ?_
  rw [abs_mul, abs_mul, abs_of_nonneg hY]
  have h1 : |x| * |y - Y| ≤ p * X * ((q - 1) * Y) := mul_le_mul hx' hy (abs_nonneg _) (by nlinarith)
  have h2 : |x - X| * Y ≤ (p - 1) * X * Y := mul_le_mul_of_nonneg_right hx hY
  linarith

theorem Near.fl {fl : K → K} {ε : K} (h : RelErr fl ε) (hε : 0 ≤ ε) {p x X : K} (hx : Near p x X) : Near (p * (1 + ε)) (fl x) X := by
  have h1 := h.bound hε hx.abs_le
  obtain ⟨hp, hX, hx⟩ := hx
  refine ⟨by nlinarith, hX, le_trans (abs_trans h1 hx) (le_of_eq (by ring))⟩

theorem Near.div {p x X c : K} (h : Near p x X) (hc : 0 < c) : Near p (x / c) (X / c) := by
  refine ⟨h.1, div_nonneg h.2.1 hc.le, ?_⟩
  rw [← sub_div, abs_div, abs_of_pos hc, ← mul_div_assoc]
  exact div_le_div_of_nonneg_right h.2.2 hc.le

/-- Rounded sum of values with relative errors. -/
theorem Near.sum {fl : K → K} {ε : K} (h : RelErr fl ε) (hε : 0 ≤ ε) {ord : ℕ → SumOrder} (ho : ValidOrder ord) {ι : Type} {l : List ι} (hl : l ≠ [])
    {f g : ι → K} {p : K} (hp : 1 ≤ p) (hf : ∀ i ∈ l, Near p (f i) (g i)) : Near (p * (1 + ε) ^ (ord l.length).depth) (sumFl fl ord (l.map f)) (l.map g).sum := by
  have h1 := sumFl_error h hε ho (l := l.map f) (by simpa using hl)
  rw [List.length_map] at h1
  have hq : (1 : K) ≤ (1 + ε) ^ (ord l.length).depth := one_le_pow₀ (by linarith)
  generalize (1 + ε) ^ (ord l.length).depth = q at *
  have hg : 0 ≤ (l.map g).sum := List.sum_nonneg fun x hx => by
    obtain ⟨i, hi, rfl⟩ := List.mem_map.mp hx
    exact (hf i hi).2.1
  have h2 : ((l.map f).map fun x => |x|).sum ≤ p * (l.map g).sum := by
    rw [List.map_map, ← List.sum_map_mul_left]
    exact List.sum_le_sum fun i hi => (hf i hi).abs_le
  have h3 : |(l.map f).sum - (l.map g).sum| ≤ (p - 1) * (l.map g).sum := by
    have e : (l.map f).sum - (l.map g).sum = (l.map fun i => f i - g i).sum := by
      clear h1 h2 hg hf hl
      induction l with
      | nil => simp
      | cons a l ih => simp only [List.map_cons, List.sum_cons]; rw [← ih]; ring
    rw [e, ← List.sum_map_mul_left]
    refine le_trans (abs_list_sum _) ?_
    rw [List.map_map]
    exact List.sum_le_sum fun i hi => (hf i hi).2.2
  refine ⟨by nlinarith, hg, ?_⟩
  have h4 := le_trans h1 (mul_le_mul_of_nonneg_left h2 (by linarith))
  refine le_trans (abs_trans h4 h3) (le_of_eq (by ring))

theorem sum_shift (l : List K) (c μ : K) : (l.map fun x => (x - c) ^ 2).sum = (l.map fun x => (x - μ) ^ 2).sum + 2 * (μ - c) * (l.sum - l.length * μ) + l.length * (μ - c) ^ 2 := by
  induction l with
  | nil => simp
  | cons a l ih => simp only [List.map_cons, List.sum_cons, List.length_cons]; rw [ih]; push_cast; ring

/-- The two-pass algorithm: the error of the mean enters squared. -/
theorem sum_about_mean {l : List K} (hl : l ≠ []) (c : K) :
    (l.map fun x => (x - c) ^ 2).sum = (l.map fun x => (x - l.sum / l.length) ^ 2).sum + l.length * (c - l.sum / l.length) ^ 2 := by
  have hn : (l.length : K) ≠ 0 := by exact_mod_cast (List.length_pos_iff.2 hl).ne'
  rw [sum_shift l c (l.sum / l.length), mul_div_cancel₀ _ hn]
  ring

theorem sampleVar_nonneg {l : List K} (hl : 2 ≤ l.length) : 0 ≤ sampleVar l := by
  have : (2 : K) ≤ l.length := by exact_mod_cast hl
  refine div_nonneg (List.sum_nonneg fun x hx => ?_) (by linarith)
  obtain ⟨y, -, rfl⟩ := List.mem_map.mp hx
  exact sq_nonneg _

/-- The computed variance is, up to a relative error, the mean square about the computed mean. -/
theorem varFl_near {fl : K → K} {ε : K} (h : RelErr fl ε) (hε : 0 ≤ ε) {ord : ℕ → SumOrder} (ho : ValidOrder ord) {l : List K} (hl : 2 ≤ l.length) :
    ∃ r m, varFl fl ord l = some r ∧ |m - l.sum / l.length| ≤ ((1 + ε) ^ ((ord l.length).depth + 1) - 1) * meanAbs l ∧
      Near ((1 + ε) ^ ((ord l.length).depth + 4)) r (sampleVar l + l.length / (l.length - 1) * (m - l.sum / l.length) ^ 2) ∧
      (l.map fun x => (x - m) ^ 2).sum / ((l.length : K) - 1) = sampleVar l + l.length / (l.length - 1) * (m - l.sum / l.length) ^ 2 := by
  have hne : l ≠ [] := by rintro rfl; simp at hl
  have hn : (0 : K) < (l.length : K) - 1 := by
    have : (2 : K) ≤ l.length := by exact_mod_cast hl
    linarith
  set m := fl (sumFl fl ord l / l.length) with hm
  have hs : (l.map fun x => (x - m) ^ 2).sum / ((l.length : K) - 1) = sampleVar l + l.length / (l.length - 1) * (m - l.sum / l.length) ^ 2 := by
    unfold sampleVar
    rw [sum_about_mean hne m, add_div]
    ring
  refine ⟨fl (sumFl fl ord ((l.map fun y => fl (y - m)).map fun y => fl (y * y)) / ((l.length : K) - 1)), m, ?_, meanFl_error h hε ho hne, ?_, hs⟩
  · unfold varFl
    rw [if_neg (by omega)]
  · rw [← hs, List.map_map]
    have hq : ∀ y ∈ l, Near ((1 + ε) ^ 3) (((fun y => fl (y * y)) ∘ fun y => fl (y - m)) y) ((y - m) ^ 2) := by
      intro y _
      have e := h (y - m)
      simp only [Function.comp]
      set d := y - m
      -- squares of the rounded difference
      have hd : Near ((1 + ε) * (1 + ε)) (fl d * fl d) (d ^ 2) := by
        have a : Near (1 + ε) |fl d| |d| := ⟨by linarith, abs_nonneg _, by
          refine le_trans (abs_abs_sub_abs_le _ _) ?_
          rw [add_sub_cancel_left]; exact e⟩
        have := a.mul a
        rwa [abs_mul_abs_self, abs_mul_abs_self, ← pow_two d] at this
      exact (hd.fl h hε).mono (le_of_eq (by ring))
    have hp3 : (1 : K) ≤ (1 + ε) ^ 3 := one_le_pow₀ (by linarith)
    exact (((Near.sum h hε ho hne hp3 hq).div hn).fl h hε).mono (le_of_eq (by ring))

theorem length_ratio {n : ℕ} (hn : 2 ≤ n) : 0 ≤ (n : K) / (n - 1) ∧ (n : K) / (n - 1) ≤ 2 := by
  have h2 : (2 : K) ≤ n := by exact_mod_cast hn
  have h1 : (0 : K) < (n : K) - 1 := by linarith
  exact ⟨div_nonneg (by linarith) h1.le, by rw [div_le_iff₀ h1]; linarith⟩

theorem varFl_error {fl : K → K} {ε : K} (h : RelErr fl ε) (hε : 0 ≤ ε) {ord : ℕ → SumOrder} (ho : ValidOrder ord) {l : List K} (hl : 2 ≤ l.length) :
    ∃ r, varFl fl ord l = some r ∧ |r - sampleVar l| ≤ ((1 + ε) ^ ((ord l.length).depth + 4) - 1) * sampleVar l +
      (1 + ε) ^ ((ord l.length).depth + 4) * (l.length / (l.length - 1) * (((1 + ε) ^ ((ord l.length).depth + 1) - 1) * meanAbs l) ^ 2) := by
  obtain ⟨r, m, hr, hm, hN, -⟩ := varFl_near h hε ho hl
  refine ⟨r, hr, ?_⟩
  obtain ⟨hP, -, he⟩ := hN
  generalize (1 + ε) ^ ((ord l.length).depth + 4) = P at *
  generalize ((1 + ε) ^ ((ord l.length).depth + 1) - 1) * meanAbs l = δ at *
  have hc := (length_ratio (K := K) hl).1
  generalize (l.length : K) / (l.length - 1) = c at *
  generalize m - l.sum / l.length = e at *
  have hsq : e ^ 2 ≤ δ ^ 2 := by
    rw [← sq_abs e]
    exact pow_le_pow_left₀ (abs_nonneg _) hm 2
  have hce : 0 ≤ c * e ^ 2 := mul_nonneg hc (sq_nonneg _)
  have h1 : |sampleVar l + c * e ^ 2 - sampleVar l| ≤ c * e ^ 2 := by rw [add_sub_cancel_left, abs_of_nonneg hce]
  refine le_trans (abs_trans he h1) ?_
  have h2 : c * e ^ 2 ≤ c * δ ^ 2 := mul_le_mul_of_nonneg_left hsq hc
  have h3 : P * (c * e ^ 2) ≤ P * (c * δ ^ 2) := mul_le_mul_of_nonneg_left h2 (by linarith)
  linarith

/-- Exact variances of two lists of values near each other. -/
theorem sampleVar_near {ι : Type} {l : List ι} (hl : 2 ≤ l.length) {f g : ι → K} {η T : K} (hη : 0 ≤ η) (hfg : ∀ i ∈ l, |f i - g i| ≤ η) (h0 : ∀ i ∈ l, 0 ≤ g i) (hT : ∀ i ∈ l, g i ≤ T) :
    |sampleVar (l.map f) - sampleVar (l.map g)| ≤ 8 * (η * (T + η)) := by
  have hne : l ≠ [] := by rintro rfl; simp at hl
  have hn : (0 : K) < (l.length : K) - 1 := by
    have : (2 : K) ≤ l.length := by exact_mod_cast hl
    linarith
  have hn0 : (0 : K) < l.length := by linarith
  have hμ := mean_near hne hfg
  unfold sampleVar
  simp only [List.length_map, List.map_map, Function.comp_def]
  have hg1 : (l.map g).sum / l.length ≤ T := by
    have := mean_le (l := l.map g) (by simpa using hne) (T := T) (by
      intro x hx
      obtain ⟨i, hi, rfl⟩ := List.mem_map.mp hx
      exact hT i hi)
    rwa [List.length_map] at this
  have hg0 : 0 ≤ (l.map g).sum / l.length := div_nonneg (List.sum_nonneg fun x hx => by
      obtain ⟨i, hi, rfl⟩ := List.mem_map.mp hx
      exact h0 i hi) hn0.le
  generalize (l.map f).sum / (l.length : K) = μ at *
  generalize (l.map g).sum / (l.length : K) = ν at *
  have hT0 : 0 ≤ T := le_trans hg0 hg1
  have hi : ∀ i ∈ l, |(f i - μ) ^ 2 - (g i - ν) ^ 2| ≤ 2 * η * (2 * T + 2 * η) := by
    intro i hi
    refine sq_near (e := 2 * η) ?_ ?_
    · have := abs_sub_le' (a := f i - g i) (b := μ - ν)
      rw [show f i - g i - (μ - ν) = f i - μ - (g i - ν) by ring] at this
      have := hfg i hi
      linarith
    · rw [abs_le]
      have := h0 i hi
      have := hT i hi
      constructor <;> linarith
  have hm := mean_near hne hi
  rw [← sub_div, abs_div, abs_of_pos hn0, div_le_iff₀ hn0] at hm
  rw [← sub_div, abs_div, abs_of_pos hn, div_le_iff₀ hn]
  refine le_trans hm ?_
  have h2 : (l.length : K) ≤ 2 * ((l.length : K) - 1) := by
    have : (2 : K) ≤ l.length := by exact_mod_cast hl
    linarith
  have h3 : 0 ≤ 2 * η * (2 * T + 2 * η) := by positivity
  nlinarith

/-- The computed `v` against the exact variance of values that are known up to `η`. -/
theorem vOfFl_near {fl : K → K} {ε γ : K} (h : RelErr fl ε) (hε : 0 ≤ ε) {ord : ℕ → SumOrder} (ho : ValidOrder ord) {ι : Type} {l : List ι} (hl : 2 ≤ l.length)
    {f g : ι → K} {η T eff : K} (hη : 0 ≤ η) (hfg : ∀ i ∈ l, |f i - g i| ≤ η) (h0 : ∀ i ∈ l, 0 ≤ g i) (hT : ∀ i ∈ l, g i ≤ T) (heff : 0 < eff)
    (hγ : (1 + ε) ^ ((ord l.length).depth + 5) - 1 ≤ γ) :
    ∃ v, vOfFl fl ord (l.map f) eff = some v ∧ |v - sampleVar (l.map g) / eff| ≤ varError γ η T (sampleVar (l.map g)) / eff := by
  have hlf : 2 ≤ (l.map f).length := by simpa using hl
  have hlg : 2 ≤ (l.map g).length := by simpa using hl
  have hne : l ≠ [] := by rintro rfl; simp at hl
  have hn0 : (0 : K) < l.length := by exact_mod_cast List.length_pos_iff.2 hne
  obtain ⟨r, m, hr, hm, hN, -⟩ := varFl_near h hε ho hlf
  rw [List.length_map] at hm hN
  have hv := (hN.div heff).fl h hε
  refine ⟨fl (r / eff), ?_, ?_⟩
  · unfold vOfFl
    rw [hr]
    simp [heff.ne']
  have hp5 : (1 + ε) ^ ((ord l.length).depth + 4) * (1 + ε) ≤ 1 + γ := by
    have : (1 + ε) ^ ((ord l.length).depth + 4) * (1 + ε) = (1 + ε) ^ ((ord l.length).depth + 5) := by ring
    linarith
  obtain ⟨hγ1, hX, hv⟩ := hv.mono hp5
  have hT0 : 0 ≤ T := by
    obtain ⟨i, hi⟩ := List.exists_mem_of_ne_nil l hne
    exact le_trans (h0 i hi) (hT i hi)
  have hA : meanAbs (l.map f) ≤ T + η := by
    unfold meanAbs
    rw [List.map_map]
    have := mean_le (l := l.map ((fun x => |x|) ∘ f)) (by simpa using hne) (T := T + η) (by
      intro x hx
      obtain ⟨i, hi, rfl⟩ := List.mem_map.mp hx
      exact abs_le_of_near (hfg i hi) (by rw [abs_of_nonneg (h0 i hi)]; exact hT i hi))
    rwa [List.length_map] at this ⊢
  have hδ : ((1 + ε) ^ ((ord l.length).depth + 1) - 1) * meanAbs (l.map f) ≤ γ * (T + η) := by
    have h1 : (1 + ε) ^ ((ord l.length).depth + 1) ≤ (1 + ε) ^ ((ord l.length).depth + 5) := pow_le_pow_right₀ (by linarith) (by omega)
    have h2 : (1 : K) ≤ (1 + ε) ^ ((ord l.length).depth + 1) := one_le_pow₀ (by linarith)
    have h3 : 0 ≤ meanAbs (l.map f) := div_nonneg (List.sum_nonneg (by simp)) (Nat.cast_nonneg _)
    exact mul_le_mul (by linarith) hA h3 (by linarith)
  have hV := sampleVar_near hl hη hfg h0 hT
  have hV0 := sampleVar_nonneg hlg
  have hc := length_ratio (K := K) hl
  generalize sampleVar (l.map f) = V' at *
  generalize sampleVar (l.map g) = V at *
  generalize (l.length : K) / (l.length - 1) = c at *
  generalize m - (l.map f).sum / l.length = e at *
  have hsq : e ^ 2 ≤ (γ * (T + η)) ^ 2 := by
    rw [← sq_abs e]
    exact pow_le_pow_left₀ (abs_nonneg _) (le_trans hm hδ) 2
  have hce : c * e ^ 2 ≤ 2 * (γ * (T + η)) ^ 2 := mul_le_mul hc.2 hsq (sq_nonneg _) (by norm_num)
  have hce0 : 0 ≤ c * e ^ 2 := mul_nonneg hc.1 (sq_nonneg _)
  -- the numerators
  have hnum : |V' + c * e ^ 2 - V| ≤ 8 * (η * (T + η)) + 2 * (γ * (T + η)) ^ 2 := by
    have := abs_add_le (V' - V) (c * e ^ 2)
    rw [abs_of_nonneg hce0, show V' - V + c * e ^ 2 = V' + c * e ^ 2 - V by ring] at this
    linarith
  have hnum' : |(V' + c * e ^ 2) / eff - V / eff| ≤ (8 * (η * (T + η)) + 2 * (γ * (T + η)) ^ 2) / eff := by
    rw [← sub_div, abs_div, abs_of_pos heff]
    exact div_le_div_of_nonneg_right hnum heff.le
  refine le_trans (abs_trans hv hnum') ?_
  rw [← mul_div_assoc, ← add_div]
  refine div_le_div_of_nonneg_right ?_ heff.le
  have := (abs_le.mp hnum).2
  unfold varError
  have h4 : (1 + γ - 1) * (V' + c * e ^ 2) ≤ (1 + γ - 1) * (V + (8 * (η * (T + η)) + 2 * (γ * (T + η)) ^ 2)) :=
    mul_le_mul_of_nonneg_left (by linarith) (by linarith)
  linarith

/-- The computed `v` of displacements that are known up to `ω`. -/
theorem squaresVar_near {fl : K → K} {ε γ ω W eff : K} (h : RelErr fl ε) (hε : 0 ≤ ε) {ord : ℕ → SumOrder} (ho : ValidOrder ord) {axes : List (Fin 3)}
    (hax : axes ≠ []) (hnd : axes.Nodup) {a b : Arr3 K} (e0 : a.n0 = b.n0) (e1 : a.n1 = b.n1) (hn : 2 ≤ b.n0 * b.n1)
    (hab : ∀ s < b.n0, ∀ k < b.n1, ∀ l, |a.get s k l - b.get s k l| ≤ ω) (hb : ∀ s < b.n0, ∀ k < b.n1, ∀ l, |b.get s k l| ≤ W) (heff : 0 < eff)
    (hγa : (1 + ε) ^ ((ord axes.length).depth + 1) - 1 ≤ γ) (hγ : (1 + ε) ^ ((ord (b.n0 * b.n1)).depth + 5) - 1 ≤ γ) :
    ∃ v, vOfFl fl ord (dSquaredFl fl ord axes a) eff = some v ∧
      |v - sampleVar (dSquared axes b) / eff| ≤ varError γ (msdError γ ω W (3 * W ^ 2)) (3 * W ^ 2) (sampleVar (dSquared axes b)) / eff := by
  rw [dSquaredFl_product, dSquared_product, e0, e1]
  set P := List.range b.n0 ×ˢ List.range b.n1 with hP
  have hPl : P.length = b.n0 * b.n1 := by simp [hP, List.length_product]
  have hmem : ∀ p ∈ P, p.1 < b.n0 ∧ p.2 < b.n1 := fun p hp => by
    rw [hP, List.mem_product, List.mem_range, List.mem_range] at hp
    exact hp
  have hγ0 : 0 ≤ γ := by
    have : (1 : K) ≤ (1 + ε) ^ ((ord axes.length).depth + 1) := one_le_pow₀ (by linarith)
    linarith
  have hex : ∃ p ∈ P, True := by
    obtain ⟨p, hp⟩ := List.exists_mem_of_ne_nil P (by intro h0; rw [h0, List.length_nil] at hPl; omega)
    exact ⟨p, hp, trivial⟩
  obtain ⟨p0, hp0, -⟩ := hex
  have hW : 0 ≤ W := le_trans (abs_nonneg _) (hb p0.1 (hmem p0 hp0).1 p0.2 (hmem p0 hp0).2 0)
  have hω : 0 ≤ ω := le_trans (abs_nonneg _) (hab p0.1 (hmem p0 hp0).1 p0.2 (hmem p0 hp0).2 0)
  have hax3 : axes.length ≤ 3 := by simpa using hnd.length_le_card
  have hsq0 : ∀ v : V3 K, 0 ≤ (axes.map fun x => v x ^ 2).sum := fun v => List.sum_nonneg (by
    intro y hy
    obtain ⟨x, -, rfl⟩ := List.mem_map.mp hy
    exact sq_nonneg _)
  have hgT : ∀ p ∈ P, (axes.map fun x => b.get p.1 p.2 x ^ 2).sum ≤ 3 * W ^ 2 := by
    intro p hp
    have := sum_axes_near hax3 (v := b.get p.1 p.2) (w := fun _ => 0) (e := W ^ 2) (by
      intro l
      have := hb p.1 (hmem p hp).1 p.2 (hmem p hp).2 l
      rw [show b.get p.1 p.2 l ^ 2 - 0 ^ 2 = b.get p.1 p.2 l ^ 2 by ring, abs_of_nonneg (sq_nonneg _), ← sq_abs]
      exact pow_le_pow_left₀ (abs_nonneg _) this 2)
    have h0 : (axes.map fun x => (fun _ : Fin 3 => (0 : K)) x ^ 2).sum = 0 := by simp
    rw [h0, sub_zero] at this
    exact le_trans (le_abs_self _) this
  have hη : 0 ≤ msdError γ ω W (3 * W ^ 2) := by unfold msdError; positivity
  refine vOfFl_near h hε ho (by omega) hη ?_ (fun p _ => hsq0 _) hgT heff (by rw [hPl]; exact hγ)
  intro p hp
  have h1 := le_trans (sumFl_squares h hε ho hax (a.get p.1 p.2)) (mul_le_mul_of_nonneg_right hγa (hsq0 (a.get p.1 p.2)))
  have h2 := sum_axes_near hax3 (v := a.get p.1 p.2) (w := b.get p.1 p.2) fun l =>
    sq_near (hab p.1 (hmem p hp).1 p.2 (hmem p hp).2 l) (hb p.1 (hmem p hp).1 p.2 (hmem p hp).2 l)
  have h3 := (abs_le.mp h2).2
  have h4 := hgT p hp
  refine le_trans (abs_trans h1 h2) ?_
  unfold msdError
  have : γ * (axes.map fun x => a.get p.1 p.2 x ^ 2).sum ≤ γ * (3 * W ^ 2 + 3 * (ω * (2 * W + ω))) := mul_le_mul_of_nonneg_left (by linarith) hγ0
  linarith

/-- A quotient of values with relative errors. -/
theorem ratio_near {γ x X y Y : K} (hx : |x - X| ≤ γ * X) (hX : 0 ≤ X) (hy : |y - Y| ≤ γ * Y) (hY : 0 < Y) (h1 : γ < 1) :
    0 < y ∧ |x / y - X / Y| ≤ ((1 + γ) / (1 - γ) - 1) * (X / Y) := by
  have hy' := abs_le.mp hy
  have hx' := abs_le.mp hx
  have hyl : (1 - γ) * Y ≤ y := by linarith [hy'.1]
  have hg : 0 < 1 - γ := by linarith
  have hy0 : 0 < y := lt_of_lt_of_le (mul_pos hg hY) hyl
  have hγ0 : 0 ≤ γ := by
    by_contra hc
    have := le_trans (abs_nonneg _) hy
    nlinarith
  refine ⟨hy0, ?_⟩
  have e1 : (1 + γ) / (1 - γ) - 1 = 2 * γ / (1 - γ) := by field_simp; ring
  rw [e1, div_sub_div _ _ hy0.ne' hY.ne', abs_div, abs_of_pos (mul_pos hy0 hY), div_mul_div_comm, div_le_div_iff₀ (mul_pos hy0 hY) (mul_pos hg hY)]
  have e2 : |x * Y - y * X| ≤ 2 * γ * (X * Y) := by
    rw [show x * Y - y * X = (x - X) * Y - (y - Y) * X by ring]
    refine le_trans abs_sub_le' ?_
    rw [abs_mul, abs_mul, abs_of_pos hY, abs_of_nonneg hX]
    have := mul_le_mul_of_nonneg_right hx hY.le
    have := mul_le_mul_of_nonneg_right hy hX
    linarith
  calc |x * Y - y * X| * ((1 - γ) * Y) ≤ 2 * γ * (X * Y) * y :=
        mul_le_mul e2 hyl (mul_pos hg hY).le (by positivity)
    _ = 2 * γ * X * (y * Y) := by ring

/-- The computed non-Gaussian parameter of values with relative errors. -/
theorem ngpFl_near {fl : K → K} {ε γ p : K} (h : RelErr fl ε) (hε : 0 ≤ ε) {ord : ℕ → SumOrder} (ho : ValidOrder ord) {ι : Type} {l : List ι}
    {f g : ι → K} (hp : 1 ≤ p) (hf : ∀ i ∈ l, Near p (f i) (g i)) (hpos : 0 < (l.map g).sum) (hγ : p ^ 2 * (1 + ε) ^ (2 * (ord l.length).depth + 4) - 1 ≤ γ) (h1 : γ < 1) :
    ∃ r, ngpFl fl ord (l.map f) = some r ∧
      |r - (3 * ((l.map fun i => g i ^ 2).sum / l.length) / (5 * ((l.map g).sum / l.length) ^ 2) - 1)| ≤
        ((1 + γ) / (1 - γ) * (1 + ε) ^ 2 - 1) * (3 * ((l.map fun i => g i ^ 2).sum / l.length) / (5 * ((l.map g).sum / l.length) ^ 2)) + ε := by
  have hne : l ≠ [] := by rintro rfl; simp at hpos
  have hn0 : (0 : K) < l.length := by exact_mod_cast List.length_pos_iff.2 hne
  have h1ε : (1 : K) ≤ 1 + ε := by linarith
  have hq1 : (1 : K) ≤ (1 + ε) ^ (ord l.length).depth := one_le_pow₀ h1ε
  have htop := ((((Near.sum h hε ho hne (p := p * p * (1 + ε)) (by nlinarith) (fun i hi => ((hf i hi).mul (hf i hi)).fl h hε)).div hn0).fl h hε).mul (Near.refl (X := (3 : K)) (by norm_num))).fl h hε
  have hm := ((Near.sum h hε ho hne hp hf).div hn0).fl h hε
  have hbot := (((hm.mul hm).fl h hε).mul (Near.refl (X := (5 : K)) (by norm_num))).fl h hε
  have hM : 0 < (l.map g).sum / (l.length : K) := div_pos hpos hn0
  simp only [← pow_two (g _)] at htop
  generalize (l.map g).sum / (l.length : K) = M at *
  have hA0 : 0 ≤ (l.map fun i => g i ^ 2).sum / (l.length : K) := div_nonneg (List.sum_nonneg fun x hx => by
      obtain ⟨i, hi, rfl⟩ := List.mem_map.mp hx
      exact sq_nonneg _) hn0.le
  generalize (l.map fun i => g i ^ 2).sum / (l.length : K) = A at *
  have ht' := htop.mono (q := 1 + γ) (by
    refine le_trans ?_ (show p ^ 2 * (1 + ε) ^ (2 * (ord l.length).depth + 4) ≤ 1 + γ by linarith)
    have e : p ^ 2 * (1 + ε) ^ (2 * (ord l.length).depth + 4) = (p * p * (1 + ε) * (1 + ε) ^ (ord l.length).depth * (1 + ε) * 1 * (1 + ε)) * ((1 + ε) ^ (ord l.length).depth * (1 + ε)) := by ring
    rw [e]
    exact le_mul_of_one_le_right (by positivity) (by nlinarith))
  have hb' := hbot.mono (q := 1 + γ) (by
    refine le_trans (le_of_eq ?_) (show p ^ 2 * (1 + ε) ^ (2 * (ord l.length).depth + 4) ≤ 1 + γ by linarith)
    ring)
  obtain ⟨-, -, ht'⟩ := ht'
  obtain ⟨-, -, hb'⟩ := hb'
  rw [add_sub_cancel_left] at ht' hb'
  obtain ⟨hb0, hR⟩ := ratio_near ht' (by positivity) hb' (by positivity) h1
  have hγ0 : 0 ≤ γ := by
    have : (1 : K) ≤ p ^ 2 * (1 + ε) ^ (2 * (ord l.length).depth + 4) := one_le_mul_of_one_le_of_one_le (one_le_pow₀ hp) (one_le_pow₀ h1ε)
    linarith
  refine ⟨fl (fl (fl (fl (sumFl fl ord (l.map fun i => fl (f i * f i)) / (l.length : K)) * 3) /
    fl (fl (fl (sumFl fl ord (l.map f) / (l.length : K)) * fl (sumFl fl ord (l.map f) / (l.length : K))) * 5)) - 1), ?_, ?_⟩
  · unfold ngpFl
    rw [if_neg (by simpa using hne)]
    simp only [List.length_map, List.map_map, Function.comp_def]
    rw [if_neg hb0.ne']
  have e0 : A * 3 / (M * M * 5) = 3 * A / (5 * M ^ 2) := by ring
  rw [e0] at hR
  have hR0 : 0 ≤ 3 * A / (5 * M ^ 2) := by positivity
  generalize 3 * A / (5 * M ^ 2) = R at *
  have hκ : 1 ≤ (1 + γ) / (1 - γ) := by rw [le_div_iff₀ (by linarith)]; linarith
  obtain ⟨hκ', -, hr⟩ := Near.fl h hε (p := (1 + γ) / (1 - γ)) ⟨hκ, hR0, hR⟩
  generalize (1 + γ) / (1 - γ) = κ at *
  set rat := fl (fl (fl (sumFl fl ord (l.map fun i => fl (f i * f i)) / (l.length : K)) * 3) / fl (fl (fl (sumFl fl ord (l.map f) / (l.length : K)) * fl (sumFl fl ord (l.map f) / (l.length : K))) * 5)) with hrat
  have e1 : |rat - 1 - (R - 1)| ≤ (κ * (1 + ε) - 1) * R := by rw [show rat - 1 - (R - 1) = rat - R by ring]; exact hr
  have e2 : |R - 1| ≤ R + 1 := by
    have := abs_sub_le' (a := R) (b := 1)
    rwa [abs_of_nonneg hR0, abs_one] at this
  have e3 := h.bound hε (abs_le_of_near e1 e2)
  refine le_trans (abs_trans e3 e1) (le_of_eq (by ring))

end Kinisi
