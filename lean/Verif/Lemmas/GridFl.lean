import Verif.Lemmas.TimeGrid
import Mathlib.Tactic.LinearCombination

/-!
# The entries of `np.linspace(…, dtype=int)` under rounding
-/

set_option linter.unusedSectionVars false

namespace Kinisi
open Spec
variable {K : Type} [Field K] [LinearOrder K] [IsStrictOrderedRing K] [FloorRing K]

/-- The floor of a number that is off a fraction `P / q` by less than `1 / q`. -/
theorem floor_near {P k : ℤ} {q : ℕ} (hq : 0 < q) {y : K} (hy : |y - (P : K) / q| * q < 1) (hk : k = P / q) :
    ⌊y⌋ = k ∨ ((q : ℤ) ∣ P ∧ ⌊y⌋ = k - 1) := by
  have hq0 : (0 : K) < q := by exact_mod_cast hq
  have hq1 : (1 : K) ≤ q := by exact_mod_cast hq
  have hz : (0 : ℤ) < q := by exact_mod_cast hq
  have e1 : (q : ℤ) * k + P % q = P := by rw [hk]; exact Int.mul_ediv_add_emod P q
  have hr0 : 0 ≤ P % q := Int.emod_nonneg _ hz.ne'
  have hr1 : P % q < q := Int.emod_lt_of_pos _ hz
  have e2 : (P : K) / q = k + ((P % q : ℤ) : K) / q := by
    have : (P : K) = q * k + ((P % q : ℤ) : K) := by exact_mod_cast e1.symm
    rw [this, add_div, mul_div_cancel_left₀ _ hq0.ne']
  set r : ℤ := P % q with hr
  have hy' : |y * q - (k * q + (r : K))| < 1 := by
    have : |y - (P : K) / q| * q = |y * q - (k * q + (r : K))| := by
      rw [← abs_of_pos hq0, ← abs_mul, abs_of_pos hq0, e2, sub_mul, add_mul, div_mul_cancel₀ _ hq0.ne']
    rwa [this] at hy
  rw [abs_lt] at hy'
  have hr1' : (r : K) + 1 ≤ q := by exact_mod_cast hr1
  have hup : y < k + 1 := by
    by_contra h
    push Not at h
    have := mul_le_mul_of_nonneg_right h hq0.le
    nlinarith
  by_cases h0 : r = 0
  · have hdiv : (q : ℤ) ∣ P := Int.dvd_of_emod_eq_zero (hr ▸ h0)
    have hlow : (k : K) - 1 ≤ y := by
      by_contra h
      push Not at h
      have := mul_lt_mul_of_pos_right h hq0
      rw [h0] at hy'
      push_cast at hy'
      nlinarith
    by_cases hk0 : (k : K) ≤ y
    · exact .inl (Int.floor_eq_iff.2 ⟨hk0, hup⟩)
    · refine .inr ⟨hdiv, Int.floor_eq_iff.2 ⟨by push_cast; exact hlow, ?_⟩⟩
      push_cast
      push Not at hk0
      linarith
  · have hr2 : (1 : K) ≤ r := by exact_mod_cast (by omega : (1 : ℤ) ≤ r)
    refine .inl (Int.floor_eq_iff.2 ⟨?_, hup⟩)
    by_contra h
    push Not at h
    have := mul_lt_mul_of_pos_right h hq0
    nlinarith

/-- The error of one entry before it is made an integer. -/
theorem lin_error {fl : K → K} {N : ℕ} (R : Rounding fl N) {a b : ℤ} (ha : 0 ≤ a) (hab : a ≤ b) {q i : ℕ} (hq : 0 < q)
    (hi : i ≤ q) (hN : 8 * b * q < N) :
    |fl (fl ((i : K) * fl (((b - a : ℤ) : K) / q)) + (a : K)) - ((a * q + i * (b - a) : ℤ) : K) / q| * q < 1 := by
  have hq0 : (0 : K) < q := by exact_mod_cast hq
  have hq1 : (1 : K) ≤ q := by exact_mod_cast hq
  have hb0 : 0 ≤ b := ha.trans hab
  have hN0 : (0 : K) < N := by
    have : 0 ≤ 8 * b * q := by positivity
    exact_mod_cast (by omega : (0 : ℤ) < N)
  have hN1 : (1 : K) ≤ N := by exact_mod_cast (by exact_mod_cast hN0 : 0 < N)
  have ha' : (0 : K) ≤ a := by exact_mod_cast ha
  have hb' : (a : K) ≤ b := by exact_mod_cast hab
  have hi0 : (0 : K) ≤ i := by positivity
  have hiq : (i : K) ≤ q := by exact_mod_cast hi
  have hNK : 8 * (b : K) * q < N := by exact_mod_cast hN
  set D : K := ((b - a : ℤ) : K) with hD
  have hDe : D = b - a := by rw [hD]; push_cast; ring
  have hD0 : 0 ≤ D := by rw [hDe]; linarith
  set s := fl (D / q) with hs
  have r1 := R.rel (D / q)
  rw [← hs, abs_of_nonneg (div_nonneg hD0 hq0.le)] at r1
  set p := fl ((i : K) * s) with hp
  have r2 := R.rel ((i : K) * s)
  rw [← hp] at r2
  set y := fl (p + (a : K)) with hy
  have r3 := R.rel (p + (a : K))
  rw [← hy] at r3
  -- i * s
  have t0 : (i : K) * (D / q) ≤ D := by
    rw [mul_div_assoc', div_le_iff₀ hq0]
    nlinarith
  have t0' : 0 ≤ (i : K) * (D / q) := by positivity
  have e1 : |(i : K) * s - i * (D / q)| * N ≤ D := by
    rw [← mul_sub, abs_mul, abs_of_nonneg hi0, mul_assoc]
    exact (mul_le_mul_of_nonneg_left r1 hi0).trans t0
  have u1 : |(i : K) * s - i * (D / q)| ≤ D := by
    refine le_trans ?_ e1
    exact le_mul_of_one_le_right (abs_nonneg _) hN1
  have v1 : |(i : K) * s| ≤ 2 * D := by
    have := abs_add_le ((i : K) * s - i * (D / q)) (i * (D / q))
    rw [sub_add_cancel, abs_of_nonneg t0'] at this
    linarith
  have e2 : |p - (i : K) * s| * N ≤ 2 * D := r2.trans v1
  have u2 : |p - (i : K) * s| ≤ 2 * D := (le_mul_of_one_le_right (abs_nonneg _) hN1).trans e2
  have v2 : |p + (a : K)| ≤ 4 * D + a := by
    have h1 := abs_add_le (p - (i : K) * s) ((i : K) * s + a)
    have h2 := abs_add_le ((i : K) * s) (a : K)
    rw [abs_of_nonneg ha'] at h2
    have : p - (i : K) * s + ((i : K) * s + a) = p + a := by ring
    rw [this] at h1
    linarith
  have e3 : |y - (p + (a : K))| * N ≤ 4 * D + a := r3.trans v2
  have hx : ((a * q + i * (b - a) : ℤ) : K) / q = a + i * (D / q) := by
    rw [hDe]; push_cast; field_simp
  rw [hx]
  have htri : |y - ((a : K) + i * (D / q))| ≤ |y - (p + (a : K))| + |p - (i : K) * s| + |(i : K) * s - i * (D / q)| := by
    have h1 := abs_add_le (y - (p + (a : K)) + (p - (i : K) * s)) ((i : K) * s - i * (D / q))
    have h2 := abs_add_le (y - (p + (a : K))) (p - (i : K) * s)
    have : y - (p + (a : K)) + (p - (i : K) * s) + ((i : K) * s - i * (D / q)) = y - ((a : K) + i * (D / q)) := by ring
    rw [this] at h1
    linarith
  have htot : |y - ((a : K) + i * (D / q))| * N ≤ 8 * b := by
    have := mul_le_mul_of_nonneg_right htri hN0.le
    rw [add_mul, add_mul] at this
    linarith
  have := mul_le_mul_of_nonneg_right htot hq0.le
  by_contra hc
  push Not at hc
  have h3 := mul_le_mul_of_nonneg_right hc hN0.le
  nlinarith

/-- Every entry is the exact one, or the exact one is the next integer and is hit precisely. -/
theorem linEntry_near {fl : K → K} {N : ℕ} (R : Rounding fl N) {a b : ℤ} (ha : 0 ≤ a) (hab : a ≤ b) {n i : ℕ} (hn : 2 ≤ n)
    (hi : i < n) (hN : 8 * b * ((n : ℤ) - 1) < N) {k : ℤ} (hk : k = (a * ((n : ℤ) - 1) + i * (b - a)) / ((n : ℤ) - 1)) :
    linEntry fl a b n i = k ∨ (((n : ℤ) - 1) ∣ i * (b - a) ∧ linEntry fl a b n i = k - 1) := by
  obtain ⟨q, rfl⟩ : ∃ q, n = q + 1 := ⟨n - 1, by omega⟩
  have hq : 0 < q := by omega
  have hqz : (0 : ℤ) < q := by exact_mod_cast hq
  push_cast at hN hk ⊢
  rw [add_sub_cancel_right] at hN hk ⊢
  by_cases hl : i = q
  · refine .inl ?_
    have := linEntry_last fl a b (n := q + 1) (by omega)
    rw [add_tsub_cancel_right] at this
    rw [hl, this, hk, hl]
    rw [(by ring : a * (q : ℤ) + q * (b - a) = b * q), Int.mul_ediv_cancel _ hqz.ne']
  · have he := lin_error R ha hab hq (i := i) (by omega) hN
    have h := floor_near hq he hk
    have hent : linEntry fl a b (q + 1) i = ⌊fl (fl ((i : K) * fl (((b - a : ℤ) : K) / q)) + (a : K))⌋ := by
      unfold linEntry
      rw [if_neg (by omega), if_neg (by omega)]
      push_cast
      rw [add_sub_cancel_right]
    rw [hent]
    rcases h with h | ⟨h, h'⟩
    · exact .inl h
    · refine .inr ⟨?_, h'⟩
      have := (Int.dvd_add_right (Dvd.intro_left a rfl : (q : ℤ) ∣ a * q)).1 h
      exact this

/-- With room for all of them the entries stay strictly increasing. -/
theorem linEntry_lt_succ {fl : K → K} {N : ℕ} (R : Rounding fl N) {a b : ℤ} (ha : 0 ≤ a) (hab : a ≤ b) {n i : ℕ} (hn : 2 ≤ n)
    (hi : i + 1 < n) (hN : 8 * b * ((n : ℤ) - 1) < N) (hroom : (n : ℤ) ≤ b - a + 1) :
    linEntry fl a b n i < linEntry fl a b n (i + 1) := by
  obtain ⟨q, rfl⟩ : ∃ q, n = q + 1 := ⟨n - 1, by omega⟩
  have hq : 0 < q := by omega
  have hqz : (0 : ℤ) < q := by exact_mod_cast hq
  have hD : (q : ℤ) ≤ b - a := by push_cast at hroom; omega
  by_cases h1 : b - a = q
  · -- the step is exactly one frame, and nothing is rounded
    have hbN : b < N := by
      push_cast at hN
      nlinarith
    have ent : ∀ j, j ≤ q → linEntry fl a b (q + 1) j = a + j := by
      intro j hj
      by_cases hl : j = q
      · have := linEntry_last fl a b (n := q + 1) (by omega)
        rw [add_tsub_cancel_right] at this
        rw [hl, this]
        omega
      · unfold linEntry
        rw [if_neg (by omega), if_neg (by omega)]
        have hq0 : (q : K) ≠ 0 := by exact_mod_cast hq.ne'
        have f1 : fl 1 = 1 := by simpa using R.int_exact 1 (by simp; omega)
        have fj : fl (j : K) = j := by simpa using R.int_exact j (by rw [abs_of_nonneg (by omega)]; omega)
        have fs : fl ((j : K) + a) = ((a + j : ℤ) : K) := by
          have := R.int_exact (a + j) (by rw [abs_of_nonneg (by omega)]; omega)
          rw [← this]; push_cast; rw [add_comm]
        rw [h1]
        push_cast
        rw [add_sub_cancel_right, div_self hq0, f1, mul_one, fj, fs, Int.floor_intCast]
    rw [ent i (by omega), ent (i + 1) (by omega)]
    push_cast
    omega
  · have hD' : (q : ℤ) < b - a := lt_of_le_of_ne hD (Ne.symm h1)
    have hN' := hN
    have n1 := linEntry_near R ha hab hn (i := i) (by omega) hN rfl
    have n2 := linEntry_near R ha hab hn (i := i + 1) (by omega) hN rfl
    push_cast at n1 n2
    rw [add_sub_cancel_right] at n1 n2
    set k1 := (a * (q : ℤ) + i * (b - a)) / (q : ℤ) with hk1
    set k2 := (a * (q : ℤ) + (i + 1) * (b - a)) / (q : ℤ) with hk2
    have hk1' : k1 * q ≤ a * (q : ℤ) + i * (b - a) := Int.ediv_mul_le _ hqz.ne'
    have h12 : k1 + 1 ≤ k2 := by
      rw [hk2, Int.le_ediv_iff_mul_le hqz]
      nlinarith
    rcases n2 with n2 | ⟨hd, n2⟩
    · rcases n1 with n1 | ⟨-, n1⟩ <;> omega
    · -- the later one is one frame early: it is hit exactly, and the earlier one lies more than a frame before
      have hk2' : k2 * q = a * (q : ℤ) + (i + 1) * (b - a) :=
        Int.ediv_mul_cancel (Int.dvd_add (Dvd.intro_left a rfl) hd)
      have h13 : k1 + 2 ≤ k2 := by
        by_contra hc
        have : k2 = k1 + 1 := by omega
        rw [this] at hk2'
        nlinarith
      rcases n1 with n1 | ⟨-, n1⟩ <;> omega

end Kinisi
