import Verif.Spec.Float

namespace Kinisi.Spec

theorem rounding_id {K : Type} [Field K] [LinearOrder K] [IsStrictOrderedRing K] (N : ℕ) : Rounding (id : K → K) N :=
  ⟨monotone_id, fun _ _ => rfl, fun x => by simp⟩

theorem roundEven_cases (y : ℚ) : roundEven y = ⌊y⌋ ∨ roundEven y = ⌊y⌋ + 1 := by
  unfold roundEven; dsimp only; split_ifs <;> simp

theorem roundEven_floor_le (y : ℚ) : ⌊y⌋ ≤ roundEven y := by rcases roundEven_cases y with h | h <;> omega

theorem roundEven_le (y : ℚ) : roundEven y ≤ ⌊y⌋ + 1 := by rcases roundEven_cases y with h | h <;> omega

theorem roundEven_abs (y : ℚ) : |(roundEven y : ℚ) - y| ≤ 1 / 2 := by
  have h1 := Int.floor_le y
  have h2 := Int.lt_floor_add_one y
  unfold roundEven; dsimp only
  split_ifs with a b c <;> rw [abs_le] <;> push_cast <;> constructor <;> linarith

theorem roundEven_mono : Monotone roundEven := by
  intro x y hxy
  have hf : ⌊x⌋ ≤ ⌊y⌋ := Int.floor_mono hxy
  rcases hf.lt_or_eq with h | h
  · have := roundEven_le x
    have := roundEven_floor_le y
    omega
  · unfold roundEven; dsimp only
    rw [h]
    split_ifs <;> first | omega | (exfalso; linarith)

theorem roundEven_int (z : ℤ) : roundEven (z : ℚ) = z := by
  unfold roundEven; simp

theorem roundEven_le_int {y : ℚ} {z : ℤ} (h : y ≤ z) : roundEven y ≤ z := by
  have := roundEven_mono h
  rwa [roundEven_int] at this

theorem int_le_roundEven {y : ℚ} {z : ℤ} (h : (z : ℚ) ≤ y) : z ≤ roundEven y := by
  have := roundEven_mono h
  rwa [roundEven_int] at this

theorem two_zpow_pos (e : ℤ) : (0 : ℚ) < (2 : ℚ) ^ e := zpow_pos (by norm_num) e

theorem log_le {x : ℚ} (hx : x ≠ 0) : (2 : ℚ) ^ (Int.log 2 |x|) ≤ |x| := by
  exact_mod_cast Int.zpow_log_le_self (by norm_num) (abs_pos.2 hx)

theorem lt_log {x : ℚ} : |x| < (2 : ℚ) ^ (Int.log 2 |x| + 1) := by
  exact_mod_cast Int.lt_zpow_succ_log_self (b := 2) (by norm_num) |x|

theorem fl64_ne {x : ℚ} (hx : x ≠ 0) : fl64 x = (roundEven (x / (2 : ℚ) ^ (Int.log 2 |x| - 52)) : ℚ) * (2 : ℚ) ^ (Int.log 2 |x| - 52) := by
  unfold fl64; rw [if_neg hx]

theorem fl64_zero : fl64 0 = 0 := by simp [fl64]

theorem zpow_split (L : ℤ) (k : ℤ) : (2 : ℚ) ^ L = (2 : ℚ) ^ k * (2 : ℚ) ^ (L - k) := by
  rw [← zpow_add₀ (by norm_num : (2 : ℚ) ≠ 0)]; congr 1; ring

/-- A positive number rounds into its binade. -/
theorem fl64_pos_bounds {x : ℚ} (hx : 0 < x) :
    (2 : ℚ) ^ (Int.log 2 |x|) ≤ fl64 x ∧ fl64 x ≤ (2 : ℚ) ^ (Int.log 2 |x| + 1) := by
  have h1 := log_le hx.ne'
  have h2 := lt_log (x := x)
  rw [abs_of_pos hx] at h1 h2 ⊢
  have hf := fl64_ne hx.ne'
  rw [abs_of_pos hx] at hf
  set L := Int.log 2 x
  have hp := two_zpow_pos (L - 52)
  rw [hf]
  constructor
  · rw [zpow_split L 52]
    apply mul_le_mul_of_nonneg_right _ hp.le
    have : ((2 ^ 52 : ℤ) : ℚ) ≤ x / (2 : ℚ) ^ (L - 52) := by
      rw [le_div_iff₀ hp]; push_cast
      calc (2 : ℚ) ^ 52 * 2 ^ (L - 52) = 2 ^ L := by rw [zpow_split L 52]; norm_num
        _ ≤ x := h1
    have := int_le_roundEven this
    calc (2 : ℚ) ^ (52 : ℤ) = ((2 ^ 52 : ℤ) : ℚ) := by norm_num
      _ ≤ _ := by exact_mod_cast this
  · rw [zpow_split (L + 1) 53, show L + 1 - 53 = L - 52 by ring]
    apply mul_le_mul_of_nonneg_right _ hp.le
    have : x / (2 : ℚ) ^ (L - 52) ≤ ((2 ^ 53 : ℤ) : ℚ) := by
      rw [div_le_iff₀ hp]; push_cast
      calc x ≤ 2 ^ (L + 1) := h2.le
        _ = (2 : ℚ) ^ 53 * 2 ^ (L - 52) := by rw [zpow_split (L + 1) 53, show L + 1 - 53 = L - 52 by ring]; norm_num
    have := roundEven_le_int this
    calc _ ≤ ((2 ^ 53 : ℤ) : ℚ) := by exact_mod_cast this
      _ = (2 : ℚ) ^ (53 : ℤ) := by norm_num

/-- A negative number rounds into its binade. -/
theorem fl64_neg_bounds {x : ℚ} (hx : x < 0) :
    fl64 x ≤ -(2 : ℚ) ^ (Int.log 2 |x|) ∧ -(2 : ℚ) ^ (Int.log 2 |x| + 1) ≤ fl64 x := by
  have h1 := log_le hx.ne
  have h2 := lt_log (x := x)
  have hf := fl64_ne hx.ne
  rw [abs_of_neg hx] at h1 h2 hf ⊢
  set L := Int.log 2 (-x)
  have hp := two_zpow_pos (L - 52)
  rw [hf]
  constructor
  · rw [zpow_split L 52, ← neg_mul]
    apply mul_le_mul_of_nonneg_right _ hp.le
    have : x / (2 : ℚ) ^ (L - 52) ≤ ((-2 ^ 52 : ℤ) : ℚ) := by
      rw [div_le_iff₀ hp]; push_cast
      have : (2 : ℚ) ^ 52 * 2 ^ (L - 52) = 2 ^ L := by rw [zpow_split L 52]; norm_num
      linarith
    have := roundEven_le_int this
    calc _ ≤ ((-2 ^ 52 : ℤ) : ℚ) := by exact_mod_cast this
      _ = -(2 : ℚ) ^ (52 : ℤ) := by norm_num
  · rw [zpow_split (L + 1) 53, show L + 1 - 53 = L - 52 by ring, ← neg_mul]
    apply mul_le_mul_of_nonneg_right _ hp.le
    have : ((-2 ^ 53 : ℤ) : ℚ) ≤ x / (2 : ℚ) ^ (L - 52) := by
      rw [le_div_iff₀ hp]; push_cast
      have : (2 : ℚ) ^ (L + 1) = (2 : ℚ) ^ 53 * 2 ^ (L - 52) := by
        rw [zpow_split (L + 1) 53, show L + 1 - 53 = L - 52 by ring]; norm_num
      linarith
    have := int_le_roundEven this
    calc -(2 : ℚ) ^ (53 : ℤ) = ((-2 ^ 53 : ℤ) : ℚ) := by norm_num
      _ ≤ _ := by exact_mod_cast this

theorem fl64_mono : Monotone fl64 := by
  intro x y hxy
  rcases lt_trichotomy x 0 with hx | hx | hx <;> rcases lt_trichotomy y 0 with hy | hy | hy
  · -- both negative
    have hxa : |y| ≤ |x| := by rw [abs_of_neg hx, abs_of_neg hy]; linarith
    have hL : Int.log 2 |y| ≤ Int.log 2 |x| := Int.log_mono_right (abs_pos.2 hy.ne) hxa
    rcases hL.lt_or_eq with h | h
    · calc fl64 x ≤ -(2 : ℚ) ^ (Int.log 2 |x|) := (fl64_neg_bounds hx).1
        _ ≤ -(2 : ℚ) ^ (Int.log 2 |y| + 1) := neg_le_neg (zpow_le_zpow_right₀ (by norm_num) (by omega))
        _ ≤ fl64 y := (fl64_neg_bounds hy).2
    · rw [fl64_ne hx.ne, fl64_ne hy.ne, h]
      have hp := two_zpow_pos (Int.log 2 |x| - 52)
      apply mul_le_mul_of_nonneg_right _ hp.le
      exact_mod_cast roundEven_mono (div_le_div_of_nonneg_right hxy hp.le)
  · rw [hy, fl64_zero]
    have := (fl64_neg_bounds hx).1
    have := two_zpow_pos (Int.log 2 |x|)
    linarith
  · have := (fl64_neg_bounds hx).1
    have := two_zpow_pos (Int.log 2 |x|)
    have := (fl64_pos_bounds hy).1
    have := two_zpow_pos (Int.log 2 |y|)
    linarith
  · linarith
  · rw [hx, hy]
  · rw [hx, fl64_zero]
    have := (fl64_pos_bounds hy).1
    have := two_zpow_pos (Int.log 2 |y|)
    linarith
  · linarith
  · linarith
  · have hxa : |x| ≤ |y| := by rw [abs_of_pos hx, abs_of_pos hy]; linarith
    have hL : Int.log 2 |x| ≤ Int.log 2 |y| := Int.log_mono_right (abs_pos.2 hx.ne') hxa
    rcases hL.lt_or_eq with h | h
    · calc fl64 x ≤ (2 : ℚ) ^ (Int.log 2 |x| + 1) := (fl64_pos_bounds hx).2
        _ ≤ (2 : ℚ) ^ (Int.log 2 |y|) := zpow_le_zpow_right₀ (by norm_num) (by omega)
        _ ≤ fl64 y := (fl64_pos_bounds hy).1
    · rw [fl64_ne hx.ne', fl64_ne hy.ne', h]
      have hp := two_zpow_pos (Int.log 2 |y| - 52)
      apply mul_le_mul_of_nonneg_right _ hp.le
      exact_mod_cast roundEven_mono (div_le_div_of_nonneg_right hxy hp.le)

theorem fl64_rel (x : ℚ) : |fl64 x - x| * ((2 ^ 53 : ℕ) : ℚ) ≤ |x| := by
  by_cases hx : x = 0
  · simp [hx, fl64_zero]
  · have h1 := log_le hx
    rw [fl64_ne hx]
    set L := Int.log 2 |x|
    have hp := two_zpow_pos (L - 52)
    have e : (roundEven (x / (2 : ℚ) ^ (L - 52)) : ℚ) * (2 : ℚ) ^ (L - 52) - x =
        ((roundEven (x / (2 : ℚ) ^ (L - 52)) : ℚ) - x / (2 : ℚ) ^ (L - 52)) * (2 : ℚ) ^ (L - 52) := by
      field_simp
    rw [e, abs_mul, abs_of_pos hp]
    have h2 := roundEven_abs (x / (2 : ℚ) ^ (L - 52))
    have h3 : (2 : ℚ) ^ (L - 52) * (2 : ℚ) ^ 52 = (2 : ℚ) ^ L := by rw [zpow_split L 52]; norm_num; ring
    push_cast
    calc _ ≤ 1 / 2 * (2 : ℚ) ^ (L - 52) * 2 ^ 53 := by gcongr; norm_num
      _ = (2 : ℚ) ^ (L - 52) * (2 : ℚ) ^ 52 := by ring
      _ = (2 : ℚ) ^ L := h3
      _ ≤ |x| := h1

theorem fl64_of_grid {x : ℚ} (z : ℤ) (h : x / (2 : ℚ) ^ (Int.log 2 |x| - 52) = z) : fl64 x = x := by
  by_cases hx : x = 0
  · simp [hx, fl64_zero]
  · rw [fl64_ne hx, h, roundEven_int, ← h]
    have := (two_zpow_pos (Int.log 2 |x| - 52)).ne'
    field_simp

theorem fl64_int (z : ℤ) (hz : |z| ≤ ((2 ^ 53 : ℕ) : ℤ)) : fl64 (z : ℚ) = z := by
  by_cases h0 : z = 0
  · simp [h0, fl64_zero]
  have hzq : (z : ℚ) ≠ 0 := by exact_mod_cast h0
  have habs : |(z : ℚ)| ≤ 2 ^ 53 := by
    have : ((|z| : ℤ) : ℚ) ≤ ((2 ^ 53 : ℕ) : ℚ) := by exact_mod_cast hz
    rw [Int.cast_abs] at this
    calc |(z : ℚ)| ≤ ((2 ^ 53 : ℕ) : ℚ) := this
      _ = 2 ^ 53 := by norm_num
  set L := Int.log 2 |(z : ℚ)| with hL
  rcases habs.lt_or_eq with hlt | heq
  · have hL52 : L ≤ 52 := by
      have h1 := log_le hzq
      by_contra hc
      have : (2 : ℚ) ^ (53 : ℤ) ≤ (2 : ℚ) ^ L := zpow_le_zpow_right₀ (by norm_num) (by omega)
      have h53 : (2 : ℚ) ^ (53 : ℤ) = 2 ^ 53 := by norm_num
      linarith
    apply fl64_of_grid (z * 2 ^ (52 - L).toNat)
    rw [← hL]
    push_cast
    rw [div_eq_mul_inv, ← zpow_neg]
    congr 1
    rw [← zpow_natCast]
    congr 1
    omega
  · have hL53 : L = 53 := by
      rw [hL, heq]
      have := Int.log_zpow (R := ℚ) (b := 2) (by norm_num) 53
      rw [← this]
      norm_num
    rcases abs_eq (by norm_num : (0 : ℚ) ≤ 2 ^ 53) |>.1 heq with h | h
    · apply fl64_of_grid (2 ^ 52)
      rw [← hL, hL53, h]; norm_num
    · apply fl64_of_grid (-2 ^ 52)
      rw [← hL, hL53, h]; norm_num

/-- binary64 rounding satisfies everything the proofs assume. -/
theorem rounding_fl64 : Rounding fl64 (2 ^ 53) := ⟨fl64_mono, fl64_int, fl64_rel⟩

end Kinisi.Spec
