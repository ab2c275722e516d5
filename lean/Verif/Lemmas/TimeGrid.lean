import Verif.Model.TimeGrid
import Verif.Lemmas.Float
import Mathlib.Data.Int.Interval

set_option linter.unusedSectionVars false

namespace Kinisi
open Spec
variable {K : Type} [Field K] [LinearOrder K] [IsStrictOrderedRing K] [FloorRing K]

theorem PyNum.val_mul_id (a b : PyNum K) : (a.mul id b).val = a.val * b.val := by
  cases a <;> cases b <;> simp [PyNum.mul, PyNum.val]

theorem pyInt_nonneg {x : K} (h : 0 ≤ x) : pyInt x = ⌊x⌋ := by simp [pyInt, h]

theorem pyInt_int (z : ℤ) : pyInt (z : K) = z := by
  unfold pyInt; split_ifs <;> simp

theorem stepsOf_id {ts ss : PyNum K} (hd : 0 < ss.val * ts.val) {x : K} (hx : 0 ≤ x) :
    stepsOf id ts ss x = .ok ⌊x / (ss.val * ts.val)⌋ := by
  unfold stepsOf
  rw [PyNum.val_mul_id, if_neg hd.ne']
  simp only [id]
  rw [pyInt_nonneg (div_nonneg hx hd.le)]

/-- The entries of `linspaceInt`. -/
def linEntry (fl : K → K) (a b : ℤ) (n i : ℕ) : ℤ :=
  if 1 < n ∧ i = n - 1 then b
  else if n = 1 then a
  else ⌊fl (fl ((i : K) * fl (((b - a : ℤ) : K) / ((n : K) - 1))) + (a : K))⌋

theorem linspaceInt_nat (fl : K → K) (a b : ℤ) (n : ℕ) :
    linspaceInt fl a b (n : ℤ) = .ok ((List.range n).map (linEntry fl a b n)) := by
  unfold linspaceInt
  rw [if_neg (by omega)]
  simp only [Int.toNat_natCast]
  rfl

theorem linEntry_last (fl : K → K) (a b : ℤ) {n : ℕ} (hn : 2 ≤ n) : linEntry fl a b n (n - 1) = b := by
  unfold linEntry; rw [if_pos ⟨by omega, rfl⟩]

section rounded
variable {fl : K → K} {N : ℕ} (R : Rounding fl N) {a b : ℤ} (hab : a ≤ b) (ha : |a| ≤ N) (hb : |b| ≤ N)
  (hd : b - a ≤ N) {n : ℕ} (hn : 2 ≤ n) (hnN : n ≤ N + 1)
include R hab ha hb hd hn hnN

theorem step_nonneg : 0 ≤ fl (((b - a : ℤ) : K) / ((n : K) - 1)) := by
  have h0 : fl 0 = 0 := by simpa using R.int_exact 0 (by simp)
  have : (0 : K) ≤ ((b - a : ℤ) : K) / ((n : K) - 1) := by
    apply div_nonneg
    · exact_mod_cast (by omega : (0 : ℤ) ≤ b - a)
    · have : (2 : K) ≤ n := by exact_mod_cast hn
      linarith
  calc (0 : K) = fl 0 := h0.symm
    _ ≤ _ := R.mono this

theorem step_bound {i : ℕ} (hi : i + 2 ≤ n) : (i : K) * fl (((b - a : ℤ) : K) / ((n : K) - 1)) ≤ ((b - a : ℤ) : K) := by
  have hn2 : (2 : K) ≤ n := by exact_mod_cast hn
  have hn1 : (0 : K) < (n : K) - 1 := by linarith
  have hD : (0 : K) ≤ ((b - a : ℤ) : K) := by exact_mod_cast (by omega : (0 : ℤ) ≤ b - a)
  set q := ((b - a : ℤ) : K) / ((n : K) - 1) with hq
  have hqD : q * ((n : K) - 1) = ((b - a : ℤ) : K) := by rw [hq]; field_simp
  have hq0 : 0 ≤ q := div_nonneg hD hn1.le
  have hrel := R.rel q
  rw [abs_of_nonneg hq0] at hrel
  have hN1 : (1 : K) ≤ N := by exact_mod_cast (by omega : 1 ≤ N)
  have h1 : (fl q - q) * N ≤ q := le_trans (mul_le_mul_of_nonneg_right (le_abs_self _) (by linarith)) hrel
  have hi' : (i : K) + 2 ≤ n := by exact_mod_cast hi
  have hnN' : (n : K) ≤ N + 1 := by exact_mod_cast hnN
  have hi0 : (0 : K) ≤ i := by positivity
  -- (i * fl q) * N ≤ i * q * (N + 1) ≤ (n-1) * q * N
  have h2 : (i : K) * fl q * N ≤ ((b - a : ℤ) : K) * N := by
    calc (i : K) * fl q * N = i * ((fl q - q) * N + q * N) := by ring
      _ ≤ i * (q + q * N) := by gcongr
      _ = q * (i * N + i) := by ring
      _ ≤ q * (((n : K) - 1) * N) := by
          apply mul_le_mul_of_nonneg_left _ hq0
          nlinarith
      _ = ((b - a : ℤ) : K) * N := by rw [← hqD]; ring
  exact le_of_mul_le_mul_right h2 (by linarith)

theorem linEntry_mid_bounds {i : ℕ} (hi : i + 2 ≤ n) : a ≤ linEntry fl a b n i ∧ linEntry fl a b n i ≤ b := by
  have hs := step_nonneg R hab ha hb hd hn hnN
  have hu := step_bound R hab ha hb hd hn hnN hi
  unfold linEntry
  rw [if_neg (by omega), if_neg (by omega)]
  set s := fl (((b - a : ℤ) : K) / ((n : K) - 1))
  have h0 : fl 0 = 0 := by simpa using R.int_exact 0 (by simp)
  have hlow : (0 : K) ≤ fl ((i : K) * s) := by
    rw [← h0]; exact R.mono (by positivity)
  have hup : fl ((i : K) * s) ≤ ((b - a : ℤ) : K) := by
    rw [← R.int_exact (b - a) (by rw [abs_of_nonneg (by omega)]; exact hd)]
    exact R.mono hu
  constructor
  · rw [Int.le_floor]
    rw [← R.int_exact a ha]
    apply R.mono
    rw [R.int_exact a ha]
    linarith
  · have : fl (fl ((i : K) * s) + (a : K)) ≤ (b : K) := by
      rw [← R.int_exact b hb]
      apply R.mono
      push_cast at hup
      linarith
    calc ⌊fl (fl ((i : K) * s) + (a : K))⌋ ≤ ⌊(b : K)⌋ := Int.floor_mono this
      _ = b := Int.floor_intCast b

theorem linEntry_bounds {i : ℕ} (hi : i < n) : a ≤ linEntry fl a b n i ∧ linEntry fl a b n i ≤ b := by
  by_cases h : i = n - 1
  · rw [h, linEntry_last fl a b hn]; exact ⟨hab, le_rfl⟩
  · exact linEntry_mid_bounds R hab ha hb hd hn hnN (by omega)

theorem linEntry_mono {i j : ℕ} (hij : i ≤ j) (hj : j < n) : linEntry fl a b n i ≤ linEntry fl a b n j := by
  by_cases h : j = n - 1
  · rw [h, linEntry_last fl a b hn]; exact (linEntry_bounds R hab ha hb hd hn hnN (by omega)).2
  · have hs := step_nonneg R hab ha hb hd hn hnN
    unfold linEntry
    rw [if_neg (by omega), if_neg (by omega), if_neg (by omega), if_neg (by omega)]
    apply Int.floor_mono
    apply R.mono
    have : (i : K) ≤ j := by exact_mod_cast hij
    gcongr
    exact R.mono (by gcongr)

theorem linEntry_zero : linEntry fl a b n 0 = a := by
  unfold linEntry
  rw [if_neg (by omega), if_neg (by omega)]
  have h0 : fl 0 = 0 := by simpa using R.int_exact 0 (by simp)
  simp only [Nat.cast_zero, zero_mul, h0, zero_add]
  rw [R.int_exact a ha, Int.floor_intCast]

theorem linList_pairwise : ((List.range n).map (linEntry fl a b n)).Pairwise (· ≤ ·) := by
  rw [List.pairwise_map]
  refine List.Pairwise.imp_of_mem ?_ (List.pairwise_lt_range (n := n))
  intro i j hi hj hij
  exact linEntry_mono R hab ha hb hd hn hnN hij.le (List.mem_range.1 hj)

end rounded

/-- Exact arithmetic: the entries are floors of the evenly spaced points. -/
theorem linEntry_exact (a b : ℤ) {n : ℕ} (hn : 2 ≤ n) {i : ℕ} (hi : i < n) :
    linEntry (id : K → K) a b n i = ⌊(a : K) + (i : K) * ((b - a : ℤ) : K) / ((n : K) - 1)⌋ := by
  have hn1 : ((n : K) - 1) ≠ 0 := by
    have : (2 : K) ≤ n := by exact_mod_cast hn
    have : (0 : K) < (n : K) - 1 := by linarith
    exact this.ne'
  by_cases h : i = n - 1
  · subst h
    rw [linEntry_last _ _ _ hn, Nat.cast_sub (by omega)]
    push_cast
    rw [mul_div_assoc, mul_div_cancel₀ _ hn1]
    simp
  · unfold linEntry
    rw [if_neg (by omega), if_neg (by omega)]
    simp only [id]
    congr 1
    ring

/-- Exact arithmetic: strictly increasing when there is room. -/
theorem linEntry_strict {a b : ℤ} {n : ℕ} (hn : 2 ≤ n) (hroom : (n : ℤ) ≤ b - a + 1) {i j : ℕ} (hij : i < j) (hj : j < n) :
    linEntry (id : K → K) a b n i < linEntry (id : K → K) a b n j := by
  rw [linEntry_exact a b hn (by omega), linEntry_exact a b hn hj]
  have hn2 : (2 : K) ≤ n := by exact_mod_cast hn
  have hn1 : (0 : K) < (n : K) - 1 := by linarith
  have hr : ((n : K) - 1) ≤ ((b - a : ℤ) : K) := by
    have : ((n : ℤ) : K) ≤ ((b - a + 1 : ℤ) : K) := by exact_mod_cast hroom
    push_cast at this ⊢
    linarith
  have hij' : (i : K) + 1 ≤ j := by exact_mod_cast hij
  have h1 : (a : K) + (i : K) * ((b - a : ℤ) : K) / ((n : K) - 1) + 1 ≤ (a : K) + (j : K) * ((b - a : ℤ) : K) / ((n : K) - 1) := by
    have hs : 1 ≤ ((b - a : ℤ) : K) / ((n : K) - 1) := by rw [le_div_iff₀ hn1]; linarith
    rw [mul_div_assoc, mul_div_assoc]
    nlinarith
  have h2 := Int.floor_mono h1
  rw [Int.floor_add_one] at h2
  omega

/-- A list of distinct integers between `a` and `b` has at most `b - a + 1` elements. -/
theorem nodup_length_le {l : List ℤ} (h : l.Nodup) {a b : ℤ} (hb : ∀ x ∈ l, a ≤ x ∧ x ≤ b) : (l.length : ℤ) ≤ max 0 (b - a + 1) := by
  have h1 : l.toFinset ⊆ Finset.Icc a b := by
    intro x hx
    rw [Finset.mem_Icc]
    exact hb x (List.mem_toFinset.1 hx)
  have h2 := Finset.card_le_card h1
  rw [List.toFinset_card_of_nodup h, Int.card_Icc] at h2
  omega

theorem getTimeIntervals_linear {fl : K → K} {geo : ℤ → ℤ → ℕ → ℕ → K} {ts ss : PyNum K} {mn mx : K} {n : ℤ} {m M : ℤ}
    (hm : stepsOf fl ts ss mn = .ok m) (hM : stepsOf fl ts ss mx = .ok M) :
    getTimeIntervals fl geo ts ss mn mx n "linear" = linspaceInt fl (if m = 0 then 1 else m) M n := by
  unfold getTimeIntervals
  rw [hm, hM]
  rfl

end Kinisi
