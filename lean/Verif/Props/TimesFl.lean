import Verif.Props.DispFl
import Verif.Props.Parser
import Verif.Spec.TimesFl

/-!
# C105: the times in floating point arithmetic
-/

set_option linter.unusedSectionVars false
set_option linter.unusedVariables false

namespace Kinisi
open Spec
variable {K : Type} [Field K] [LinearOrder K] [IsStrictOrderedRing K] [FloorRing K]

/-- `x` is `y` up to the factor `p`. -/
def Within (p x y : K) : Prop := |x - y| ≤ (p - 1) * |y|

theorem within_self (x : K) : Within 1 x x := by simp [Within]

theorem Within.le {p x y : K} (h : Within p x y) : |x| ≤ p * |y| := by
  have := abs_le_of_near h le_rfl
  linarith

theorem Within.mono {p q x y : K} (h : Within p x y) (hq : p ≤ q) : Within q x y :=
  le_trans h (mul_le_mul_of_nonneg_right (by linarith) (abs_nonneg _))

theorem Within.fl {fl : K → K} {ε : K} (h : RelErr fl ε) (hε : 0 ≤ ε) {p x y : K} (hx : Within p x y) : Within (p * (1 + ε)) (fl x) y := by
  unfold Within at *
  have h1 := h.bound hε (Within.le hx)
  refine le_trans (abs_trans h1 hx) (le_of_eq ?_)
  ring

theorem Within.mul {p q x y z w : K} (hp : 1 ≤ p) (hx : Within p x y) (hz : Within q z w) : Within (p * q) (x * z) (y * w) := by
  have h1 := hx.le
  unfold Within at *
  rw [show x * z - y * w = x * (z - w) + (x - y) * w by ring]
  refine le_trans (abs_add_le _ _) ?_
  rw [abs_mul, abs_mul, abs_mul]
  have e1 : |x| * |z - w| ≤ (p * |y|) * ((q - 1) * |w|) := mul_le_mul h1 hz (abs_nonneg _) (by positivity)
  have e2 : |x - y| * |w| ≤ ((p - 1) * |y|) * |w| := mul_le_mul_of_nonneg_right hx (abs_nonneg _)
  nlinarith

theorem within_pyMul {fl : K → K} {ε : K} (h : RelErr fl ε) (hε : 0 ≤ ε) {p q x y : K} {a b : PyNum K} (hp : 1 ≤ p) (hq : 1 ≤ q) (ha : Within p a.val x) (hb : Within q b.val y) :
    Within (p * q * (1 + ε)) (a.mul fl b).val (x * y) := by
  have h1 := Within.mul hp ha hb
  have h2 := h1.fl h hε
  cases a with
  | int m =>
    cases b with
    | int n =>
      simp only [PyNum.mul, PyNum.val, Int.cast_mul] at *
      exact h1.mono (by have := mul_nonneg (by linarith : 0 ≤ p) (by linarith : 0 ≤ q); nlinarith)
    | float y => exact h2
  | float x => exact h2

theorem within_deltaT {fl : K → K} {ε : K} (h : RelErr fl ε) (hε : 0 ≤ ε) {q s : K} {ts ss : PyNum K} (hq : 1 ≤ q) (hs : Within q ss.val s) (τ : ℤ) :
    Within ((1 + ε) * q * (1 + ε)) (deltaTOf fl ts ss τ).val (τ * (s * ts.val)) := by
  have h1 := within_pyMul h hε le_rfl le_rfl (a := .int τ) (b := ts) (within_self (τ : K)) (within_self ts.val)
  rw [one_mul, one_mul] at h1
  have h2 := within_pyMul h hε (by linarith) hq h1 hs
  rw [show (τ : K) * (s * ts.val) = τ * ts.val * s by ring]
  exact h2

theorem timesNear_of {p c : K} {intervals : List ℤ} {times : List K} {f : ℤ → K} (ht : times = intervals.map f) (h : ∀ τ ∈ intervals, Within p (f τ) (τ * c)) :
    TimesNear (p - 1) c intervals times := by
  subst ht
  unfold TimesNear
  rw [List.forall₂_map_right_iff]
  exact List.forall₂_same.mpr fun τ hτ => h τ hτ

theorem build_deltaT {E : Num K} {P : Params K} {S : Select K} {st : Frame K} {coords : List (List (V3 K))} {latt : List (M3 K)} {r : Parsed K}
    (h : buildParser E P S st coords latt = .ok r) : r.deltaT = r.intervals.map fun τ : ℤ => (deltaTOf E.fl P.timeStep P.stepSkip τ).val := by
  obtain ⟨coords', sel, w, disp, r0, -, -, hinit, rfl⟩ := buildParser_inv h
  obtain ⟨-, -, hgd, -⟩ := parserInit_inv hinit
  exact getDisps_deltaT hgd

/-- **C105 (ASE).** Without sub-sampling, `delta_t` in floating point arithmetic is interval × step_skip × time_step up to two roundings. -/
theorem C105_ase (E : Num K) (P : Params K) (S : Select K) {ε : K} (hr : RelErr E.fl ε) (hε : 0 ≤ ε) (fr : List (Frame K)) (r : Parsed K)
    (h : aseParser E P S 1 fr = .ok r) : TimesNear ((1 + ε) ^ 2 - 1) (P.stepSkip.val * P.timeStep.val) r.intervals r.deltaT := by
  unfold aseParser at h
  cases ht : pyStride 1 fr with
  | error e => rw [ht] at h; cases h
  | ok thin =>
  rw [ht] at h
  simp only [bind, Except.bind] at h
  cases hsc : structureCoordsLatt thin with
  | error e => rw [hsc] at h; cases h
  | ok scl =>
  obtain ⟨st, coords, latt⟩ := scl
  rw [hsc] at h
  refine timesNear_of (build_deltaT h) fun τ _ => ?_
  have := within_deltaT hr hε (ts := P.timeStep) (ss := P.stepSkip) le_rfl (within_self P.stepSkip.val) τ
  rw [mul_one, ← pow_two] at this
  exact this

/-- The example of C13 in binary64. -/
def exNum64 : Num ℚ := { exNum with fl := fl64 }

/-- Its time step is no binary64 number. -/
def exParams64 : Params ℚ := { exParams with timeStep := .float (fl64 (1 / 10)) }

example : ∃ r, aseParser exNum64 exParams64 exSelect 1 exTraj = .ok r ∧ RelErr exNum64.fl (1 / (2 ^ 53 : ℕ) : ℚ) ∧ r.intervals = [1, 2, 3, 4, 5] ∧
    r.deltaT.zipWith (fun t (τ : ℤ) => decide (t = τ * (exParams64.stepSkip.val * exParams64.timeStep.val))) r.intervals = [false, false, false, false, false] := by
  obtain ⟨r, hr⟩ := ok_of_isSome (x := aseParser exNum64 exParams64 exSelect 1 exTraj) (by decide +kernel)
  have hd : (aseParser exNum64 exParams64 exSelect 1 exTraj).toOption.map
      (fun r => (r.intervals, r.deltaT.zipWith (fun t (τ : ℤ) => decide (t = τ * (exParams64.stepSkip.val * exParams64.timeStep.val))) r.intervals)) =
      some ([1, 2, 3, 4, 5], [false, false, false, false, false]) := by decide +kernel
  rw [hr] at hd
  simp only [Except.toOption, Option.map_some, Option.some.injEq, Prod.mk.injEq] at hd
  exact ⟨r, hr, relErr_of_rounding (by norm_num) rounding_fl64, hd.1, hd.2⟩

/-- **C105 (pymatgen).** The same in picoseconds, with `sub_sample_traj`, up to five roundings. -/
theorem C105_pymatgen (E : Num K) (P : Params K) (S : Select K) {ε : K} (hr : RelErr E.fl ε) (hε : 0 ≤ ε) (k : ℤ) (fr : List (Frame K)) (r : Parsed K)
    (h : pymatgenParser E P S k fr = .ok r) : TimesNear ((1 + ε) ^ 5 - 1) (P.stepSkip.val * k * P.timeStep.val / 1000) r.intervals r.deltaT := by
  unfold pymatgenParser at h
  cases ht : pyStride k fr with
  | error e => rw [ht] at h; cases h
  | ok thin =>
  rw [ht] at h
  simp only [bind, Except.bind] at h
  cases hsc : structureCoordsLatt thin with
  | error e => rw [hsc] at h; cases h
  | ok scl =>
  obtain ⟨st, coords, latt⟩ := scl
  rw [hsc] at h
  simp only at h
  cases hb : buildParser E { P with stepSkip := P.stepSkip.mul E.fl (.int k) } S st coords latt with
  | error e => rw [hb] at h; cases h
  | ok r0 =>
  rw [hb] at h
  simp only at h
  split_ifs at h
  obtain rfl := Except.ok.inj h
  dsimp only
  refine timesNear_of (f := fun τ : ℤ => E.fl ((deltaTOf E.fl P.timeStep (P.stepSkip.mul E.fl (.int k)) τ).val * E.fl (1 / 10 ^ 3))) ?_ fun τ _ => ?_
  · rw [build_deltaT hb, List.map_map]; rfl
  · have h1 := within_pyMul hr hε le_rfl le_rfl (a := P.stepSkip) (b := .int k) (within_self _) (within_self _)
    rw [one_mul, one_mul] at h1
    have h2 := within_deltaT hr hε (ts := P.timeStep) (by linarith) h1 τ
    have h3 := (within_self (1 / 10 ^ 3 : K)).fl hr hε
    have hp : (1 : K) ≤ (1 + ε) * (1 + ε) * (1 + ε) := by nlinarith [mul_nonneg hε hε, mul_nonneg (mul_nonneg hε hε) hε]
    have h4 := (Within.mul hp h2 h3).fl hr hε
    rw [show (1 + ε) * (1 + ε) * (1 + ε) * (1 * (1 + ε)) * (1 + ε) = (1 + ε) ^ 5 by ring] at h4
    simp only [PyNum.val] at h4
    rw [show (τ : K) * (P.stepSkip.val * k * P.timeStep.val / 1000) = τ * (P.stepSkip.val * k * P.timeStep.val) * (1 / 10 ^ 3) by ring]
    exact h4

example : ∃ r, pymatgenParser exNum64 exParams64 exSelect 2 exTraj = .ok r ∧ RelErr exNum64.fl (1 / (2 ^ 53 : ℕ) : ℚ) ∧ r.intervals = [1, 2, 3] := by
  obtain ⟨r, hr⟩ := ok_of_isSome (x := pymatgenParser exNum64 exParams64 exSelect 2 exTraj) (by decide +kernel)
  have hd : (pymatgenParser exNum64 exParams64 exSelect 2 exTraj).toOption.map Parsed.intervals = some [1, 2, 3] := by decide +kernel
  rw [hr] at hd
  simp only [Except.toOption, Option.map_some, Option.some.injEq] at hd
  exact ⟨r, hr, relErr_of_rounding (by norm_num) rounding_fl64, hd⟩

/-- **C105 (MDAnalysis).** With `sub_sample_traj`, up to three roundings. -/
theorem C105_mda (E : Num K) (P : Params K) (S : Select K) {ε : K} (hr : RelErr E.fl ε) (hε : 0 ≤ ε) (ka k : ℤ) (types : List String) (fr : List (MdaFrame K)) (r : Parsed K)
    (h : mdaParser E P S ka k types fr = .ok r) : TimesNear ((1 + ε) ^ 3 - 1) (P.stepSkip.val * k * P.timeStep.val) r.intervals r.deltaT := by
  unfold mdaParser at h
  dsimp only at h
  split_ifs at h
  cases ht : pyStride k fr with
  | error e => rw [ht] at h; cases h
  | ok thin =>
  rw [ht] at h
  simp only [bind, Except.bind] at h
  cases hm : thin.mapM (mdaFrame types ka) with
  | error e => rw [hm] at h; cases h
  | ok read =>
  rw [hm] at h
  simp only at h
  cases hsc : structureCoordsLatt read with
  | error e => rw [hsc] at h; cases h
  | ok scl =>
  obtain ⟨st, coords, latt⟩ := scl
  rw [hsc] at h
  simp only at h
  refine timesNear_of (build_deltaT h) fun τ _ => ?_
  have h1 := within_pyMul hr hε le_rfl le_rfl (a := P.stepSkip) (b := .int k) (within_self _) (within_self _)
  rw [one_mul, one_mul] at h1
  have h2 := within_deltaT hr hε (ts := P.timeStep) (by linarith) h1 τ
  rw [show (1 + ε) * (1 + ε) * (1 + ε) = (1 + ε) ^ 3 by ring] at h2
  exact h2

example : ∃ r, mdaParser exNum64 exParams64 exSelect 1 2 ["Li", "O", "Li"] exMda = .ok r ∧ RelErr exNum64.fl (1 / (2 ^ 53 : ℕ) : ℚ) ∧ r.intervals = [1, 2, 3] := by
  obtain ⟨r, hr, hi⟩ := exParsed_intervals (x := mdaParser exNum64 exParams64 exSelect 1 2 ["Li", "O", "Li"] exMda) (l := [1, 2, 3]) (by decide +kernel)
  exact ⟨r, hr, relErr_of_rounding (by norm_num) rounding_fl64, hi⟩

/-- **C105, order.** Such times increase strictly with the intervals, positive and up to `T`, as long as the error stays below half a step. -/
theorem C105_increasing {e c : K} {T : ℤ} {intervals : List ℤ} {times : List K} (h : TimesNear e c intervals times) (hc : 0 < c) (he : e * (2 * T + 1) < 1)
    (he0 : 0 ≤ e) (hi : intervals.Pairwise (· < ·)) (hr : ∀ τ ∈ intervals, 1 ≤ τ ∧ τ ≤ T) : times.Pairwise (· < ·) ∧ ∀ t ∈ times, 0 < t := by
  have hone : ∀ (τ : ℤ) (t : K), 1 ≤ τ → τ ≤ T → |t - τ * c| ≤ e * |τ * c| → 0 < t ∧ t ≤ τ * c * (1 + e) ∧ τ * c * (1 - e) ≤ t := by
    intro τ t h1 h2 hb
    have hτ : (1 : K) ≤ τ := by exact_mod_cast h1
    have hT : (τ : K) ≤ T := by exact_mod_cast h2
    have hp : 0 < (τ : K) * c := by positivity
    rw [abs_of_pos hp] at hb
    have := abs_le.mp hb
    have he1 : e < 1 := by nlinarith
    refine ⟨?_, by linarith, by linarith⟩
    nlinarith
  induction h with
  | nil => simp
  | @cons τ t l ts hb hl ih =>
    rw [List.pairwise_cons] at hi
    have hτ := hr τ (by simp)
    obtain ⟨p1, p2, p3⟩ := hone τ t hτ.1 hτ.2 hb
    obtain ⟨q1, q2⟩ := ih hi.2 fun σ hσ => hr σ (by simp [hσ])
    refine ⟨List.pairwise_cons.mpr ⟨fun t' ht' => ?_, q1⟩, fun t' ht' => ?_⟩
    · obtain ⟨n, hn, rfl⟩ := List.getElem_of_mem ht'
      have hn' : n < l.length := by rw [hl.length_eq]; exact hn
      have hb' := (List.forall₂_iff_get.mp hl).2 n hn' hn
      have hσ := hr (l.get ⟨n, hn'⟩) (List.mem_cons_of_mem _ (List.get_mem _ _))
      have hlt := hi.1 (l.get ⟨n, hn'⟩) (List.get_mem _ _)
      obtain ⟨r1, r2, r3⟩ := hone _ _ hσ.1 hσ.2 hb'
      generalize l.get ⟨n, hn'⟩ = σ at *
      refine lt_of_le_of_lt p2 (lt_of_lt_of_le ?_ r3)
      have h1 : (τ : K) + 1 ≤ σ := by exact_mod_cast hlt
      have h2 : (σ : K) ≤ T := by exact_mod_cast hσ.2
      have h3 : (1 : K) ≤ τ := by exact_mod_cast hτ.1
      rw [mul_right_comm, mul_right_comm (σ : K)]
      refine mul_lt_mul_of_pos_right ?_ hc
      nlinarith
    · rcases List.mem_cons.mp ht' with rfl | ht'
      · exact p1
      · exact q2 t' ht'

/-- In binary64 the error is small enough for a million frames. -/
example : ((1 + (1 / (2 ^ 53 : ℕ) : ℚ)) ^ 5 - 1) * (2 * ((10 ^ 6 : ℕ) : ℤ) + 1) < 1 := by norm_num

/-- The times of the example above increase, by the two theorems. -/
example : ∃ r, aseParser exNum64 exParams64 exSelect 1 exTraj = .ok r ∧ r.deltaT.Pairwise (· < ·) ∧ ∀ t ∈ r.deltaT, 0 < t := by
  obtain ⟨r, hr, hi⟩ := exParsed_intervals (x := aseParser exNum64 exParams64 exSelect 1 exTraj) (l := [1, 2, 3, 4, 5]) (by decide +kernel)
  have h := C105_ase exNum64 exParams64 exSelect (relErr_of_rounding (by norm_num) rounding_fl64) (by norm_num) exTraj r hr
  exact ⟨r, hr, C105_increasing (T := 5) h (by decide +kernel) (by norm_num) (by norm_num) (by rw [hi]; decide) (by rw [hi]; decide)⟩

/-- **C73, what holds in floating point arithmetic.** If `min_dt` (or `max_dt`) is `m` times the computed time `d` between frames up to an error of `e`
frames, the first (last) interval is `m` or `m - 1` frames, never another one.  Missing for the full property: `m - 1` is possible, see
`C73_violated_binary64`. -/
theorem C73_rounded_partial {fl : K → K} {ε : K} (hfl : RelErr fl ε) (ts ss : PyNum K) (d : K) (hd : d = (ss.mul fl ts).val) (hpos : 0 < d) (m : ℕ) (hm : 1 ≤ m)
    (x e : K) (hx : |x - (m : K) * d| ≤ e * d) (hε : 0 ≤ ε) (hsmall : e + ε * ((m : K) + e) < 1) :
    ∃ j, stepsOf fl ts ss x = .ok j ∧ (j = (m : ℤ) ∨ j = (m : ℤ) - 1) := by
  have h0 : |x / d - (m : K)| ≤ e := by
    rw [show x / d - (m : K) = (x - m * d) / d by field_simp, abs_div, abs_of_pos hpos, div_le_iff₀ hpos]
    exact hx
  have he : 0 ≤ e := (abs_nonneg _).trans h0
  have h1 : |x / d| ≤ (m : K) + e := by
    calc |x / d| = |(m : K) + (x / d - m)| := by ring_nf
      _ ≤ |(m : K)| + |x / d - m| := abs_add_le _ _
      _ ≤ (m : K) + e := by rw [Nat.abs_cast]; linarith
  have h2 := (hfl (x / d)).trans (mul_le_mul_of_nonneg_left h1 hε)
  have h3 : |fl (x / d) - (m : K)| < 1 := by
    calc |fl (x / d) - (m : K)| = |(fl (x / d) - x / d) + (x / d - m)| := by ring_nf
      _ ≤ |fl (x / d) - x / d| + |x / d - m| := abs_add_le _ _
      _ < 1 := by linarith
  rw [abs_lt] at h3
  have hm' : (1 : K) ≤ m := by exact_mod_cast hm
  refine ⟨⌊fl (x / d)⌋, ?_, ?_⟩
  · unfold stepsOf
    dsimp only
    rw [← hd, if_neg hpos.ne', pyInt_nonneg (by linarith)]
  · have a1 : ⌊fl (x / d)⌋ < (m : ℤ) + 1 := Int.floor_lt.mpr (by push_cast; linarith)
    have a2 : (m : ℤ) - 1 ≤ ⌊fl (x / d)⌋ := Int.le_floor.mpr (by push_cast; linarith)
    omega

/-- `min_dt = 0.3` with frames 0.1 apart. -/
example : ∃ j, stepsOf fl64 (.float (fl64 (1 / 10))) (.int 1) (fl64 (3 / 10)) = .ok j ∧ (j = ((3 : ℕ) : ℤ) ∨ j = ((3 : ℕ) : ℤ) - 1) :=
  C73_rounded_partial (relErr_of_rounding (by norm_num) rounding_fl64) _ _ _ rfl (by decide +kernel) 3 (by norm_num) _ (1 / 10 ^ 15) (by decide +kernel) (by norm_num)
    (by norm_num)

end Kinisi
