import Verif.Props.MsdFl
import Verif.Props.Lengths
import Verif.Lemmas.VarFl

/-!
# C116: the reported variances and the non-Gaussian parameter in floating point arithmetic
-/

set_option linter.unusedSectionVars false
set_option linter.unusedVariables false

namespace Kinisi
open Spec
variable {K : Type} [Field K] [LinearOrder K] [IsStrictOrderedRing K] [FloorRing K]

/-- **C116, variance.** The computed variance of any values has, besides a relative error, only an error of second order: the square of the rounding error
of the mean. -/
theorem C116_variance {fl : K → K} {ε : K} (h : RelErr fl ε) (hε : 0 ≤ ε) {ord : ℕ → SumOrder} (ho : ValidOrder ord) (l : List K) (hl : 2 ≤ l.length) :
    ∃ r, varFl fl ord l = some r ∧ |r - sampleVar l| ≤ ((1 + ε) ^ ((ord l.length).depth + 4) - 1) * sampleVar l +
      (1 + ε) ^ ((ord l.length).depth + 4) * (l.length / (l.length - 1) * (((1 + ε) ^ ((ord l.length).depth + 1) - 1) * meanAbs l) ^ 2) :=
  varFl_error h hε ho hl

/-- **C116, sign.** The computed variance is never negative (so its root is never nan), and it is zero only if all values are the same number. -/
theorem C116_sign {fl : K → K} {ε : K} (h : RelErr fl ε) (hε : 0 ≤ ε) {ord : ℕ → SumOrder} (ho : ValidOrder ord) (l : List K) (hl : 2 ≤ l.length)
    (hs : (1 + ε) ^ ((ord l.length).depth + 4) < 2) :
    ∃ r, varFl fl ord l = some r ∧ 0 ≤ r ∧ (r = 0 → ∀ x ∈ l, ∀ y ∈ l, x = y) := by
  obtain ⟨r, m, hr, -, ⟨-, hX, he⟩, hsum⟩ := varFl_near h hε ho hl
  rw [← hsum] at hX he
  have hn : (0 : K) < (l.length : K) - 1 := by
    have : (2 : K) ≤ l.length := by exact_mod_cast hl
    linarith
  generalize (1 + ε) ^ ((ord l.length).depth + 4) = P at *
  have h1 := abs_le.mp he
  refine ⟨r, hr, by nlinarith [h1.1], ?_⟩
  rintro rfl
  have h0 : (l.map fun x => (x - m) ^ 2).sum / ((l.length : K) - 1) = 0 := by nlinarith [h1.1]
  rw [div_eq_zero_iff, or_iff_left hn.ne'] at h0
  have hall : ∀ x ∈ l, x = m := by
    have : ∀ t : List K, (t.map fun x => (x - m) ^ 2).sum = 0 → ∀ x ∈ t, x = m := by
      intro t
      induction t with
      | nil => simp
      | cons a t ih =>
        intro ht x hx
        simp only [List.map_cons, List.sum_cons] at ht
        have ht0 : 0 ≤ (t.map fun x => (x - m) ^ 2).sum := List.sum_nonneg fun z hz => by
          obtain ⟨w, -, rfl⟩ := List.mem_map.mp hz
          exact sq_nonneg _
        have ha0 := sq_nonneg (a - m)
        rcases List.mem_cons.mp hx with rfl | hx
        · have : (x - m) ^ 2 = 0 := by linarith
          exact sub_eq_zero.mp (pow_eq_zero_iff (by norm_num) |>.mp this)
        · exact ih (by linarith) x hx
    exact this l h0
  intro x hx y hy
  rw [hall x hx, hall y hy]

/-- **C116, equal values.** The converse of `C116_sign` fails: in binary64 the variance of three times the double next to 0.1 is not zero (but, by
`C116_variance`, below 10⁻³³). -/
theorem C116_equal_values : ∃ (x : ℚ) (r : ℚ), fl64 x = x ∧ varFl fl64 seqOrder [x, x, x] = some r ∧ r ≠ 0 ∧ r < 1 / 10 ^ 33 := by
  have hx : fl64 (1 / 10) = 3602879701896397 / 36028797018963968 := by decide +kernel
  have hv : ∃ r, varFl fl64 seqOrder [3602879701896397 / 36028797018963968, 3602879701896397 / 36028797018963968, 3602879701896397 / 36028797018963968] = some r ∧ r ≠ 0 ∧ r < 1 / 10 ^ 33 := by
    have : (varFl fl64 seqOrder [3602879701896397 / 36028797018963968, 3602879701896397 / 36028797018963968, 3602879701896397 / 36028797018963968]).any (fun r => decide (r ≠ 0 ∧ r < 1 / 10 ^ 33)) = true := by
      decide +kernel
    cases hr : varFl fl64 seqOrder [3602879701896397 / 36028797018963968, 3602879701896397 / 36028797018963968, 3602879701896397 / 36028797018963968] with
    | none => rw [hr] at this; cases this
    | some r => rw [hr] at this; exact ⟨r, rfl, by simpa using this⟩
  obtain ⟨r, h1, h2⟩ := hv
  exact ⟨_, r, by decide +kernel, h1, h2⟩

theorem dSquared_totals {L : M3 K} {u : ℕ → ℕ → V3 K} {fw atoms : List ℕ} {F τ : ℕ} {a : Arr3 K} {axes : List (Fin 3)}
    (hn : axes.Nodup) (h : TrueWindows L u fw atoms F τ a) (q : ℕ → K) :
    dSquared axes (totalArr q a) = reportedTotals axes.toFinset L u fw atoms q F τ := by
  obtain ⟨e0, e1, e2⟩ := h
  have hrow : ∀ k s t, (∀ j (hj : j < atoms.length) l, a.get j k l = trueMove L u fw atoms[j] s t l) →
      (axes.map fun x => (∑ i ∈ Finset.range atoms.length, q i * a.get i k x) ^ 2).sum = lengthSq axes.toFinset (totalMove L u fw atoms q s t) := by
    intro k s t hk
    rw [sum_axes_list hn]
    unfold lengthSq totalMove
    refine Finset.sum_congr rfl fun x _ => ?_
    rw [Finset.sum_range]
    congr 1
    exact Finset.sum_congr rfl fun j _ => by rw [hk j j.2 x]; rfl
  unfold dSquared totalArr reportedTotals
  simp only [List.range_one, List.flatMap_cons, List.flatMap_nil, List.append_nil, e0, e1]
  rw [List.range_succ_eq_map, List.map_cons, List.map_map]
  congr 1
  · exact hrow 0 0 (τ - 1) fun j hj l => (e2 j hj).1 l
  · exact List.map_congr_left fun k hk => hrow (k + 1) k (k + τ) fun j hj l => (e2 j hj).2 k (List.mem_range.mp hk) l

/-- **C116, from coordinates to the variance of the MSD.** The computed entry of `v` differs from the variance of the true squared displacements, divided by the
number of independent samples `eff`, by at most `varError / eff`. -/
theorem C116_msd {fl : K → K} {ε : K} {inv : M3 K → PyM (M3 K)} {F n : ℕ} {L : M3 K} {u : ℕ → ℕ → V3 K} {m : ℕ → ℕ → Fin 3 → ℤ} {C A B κ M : K} (hP : FlPath fl ε inv F n L u m C A B κ M)
    {ord : ℕ → SumOrder} (ho : ValidOrder ord) (atoms fw : List ℕ) (hat : ∀ a ∈ atoms, a < n) (hfw : ∀ a ∈ fw, a < n) (hne : atoms ≠ []) (axes : List (Fin 3)) (hax : axes ≠ []) (hnd : axes.Nodup)
    (τ : ℕ) (hτ1 : 1 ≤ τ) (hτ : τ ≤ F) (h2 : 2 ≤ atoms.length * (F - τ + 1)) (eff : K) (heff : 0 < eff) (γ : K) (hγf : fw ≠ [] → (1 + ε) ^ ((ord fw.length).depth + 1) - 1 ≤ γ)
    (hγa : (1 + ε) ^ ((ord axes.length).depth + 1) - 1 ≤ γ) (hγ : (1 + ε) ^ ((ord (atoms.length * (F - τ + 1))).depth + 5) - 1 ≤ γ) :
    ∃ v, msdVarFl fl inv ord (storedCoords F n u m) (cells (F + 1) fun _ => L) (fw.map fun a : ℕ => (a : ℤ)) (atoms.map fun a : ℕ => (a : ℤ)) axes eff τ = .ok (some v) ∧
      |v - sampleVar (reportedSquares axes.toFinset L u fw atoms F τ) / eff| ≤
        varError γ (msdError γ (dispError ε γ C A B M F) (4 * M) (3 * (4 * M) ^ 2)) (3 * (4 * M) ^ 2) (sampleVar (reportedSquares axes.toFinset L u fw atoms F τ)) / eff := by
  have hε := hP.nonneg
  have hγ0 : 0 ≤ γ := by
    have : (1 : K) ≤ (1 + ε) ^ ((ord axes.length).depth + 1) := one_le_pow₀ (by linarith)
    linarith
  obtain ⟨a, b, ha, e0, e1, hb, hab, hbM⟩ := windows_near hP ho hat hfw hne hτ1 hτ hγ0 hγf
  obtain ⟨v, hv, he⟩ := squaresVar_near (γ := γ) (eff := eff) hP.rel hε ho hax hnd e0 e1 (by rw [hb.1, hb.2.1]; exact h2) hab hbM heff hγa (by rw [hb.1, hb.2.1]; exact hγ)
  rw [dSquared_true hnd hb] at he
  refine ⟨v, ?_, he⟩
  unfold msdVarFl
  rw [ha]
  simp only [bind, Except.bind]
  rw [hv]

/-- **C116, from coordinates to the variance of the MSTD.** -/
theorem C116_mstd {fl : K → K} {ε : K} {inv : M3 K → PyM (M3 K)} {F n : ℕ} {L : M3 K} {u : ℕ → ℕ → V3 K} {m : ℕ → ℕ → Fin 3 → ℤ} {C A B κ M : K} (hP : FlPath fl ε inv F n L u m C A B κ M)
    {ord : ℕ → SumOrder} (ho : ValidOrder ord) (atoms fw : List ℕ) (hat : ∀ a ∈ atoms, a < n) (hfw : ∀ a ∈ fw, a < n) (hne : atoms ≠ []) (axes : List (Fin 3)) (hax : axes ≠ []) (hnd : axes.Nodup)
    (τ : ℕ) (hτ1 : 1 ≤ τ) (hτ : τ < F) (eff : K) (heff : 0 < eff) (γ : K) (hγf : fw ≠ [] → (1 + ε) ^ ((ord fw.length).depth + 1) - 1 ≤ γ) (hγs : (1 + ε) ^ (ord atoms.length).depth - 1 ≤ γ)
    (hγa : (1 + ε) ^ ((ord axes.length).depth + 1) - 1 ≤ γ) (hγ : (1 + ε) ^ ((ord (F - τ + 1)).depth + 5) - 1 ≤ γ) :
    ∃ v, mstdVarFl fl inv ord (storedCoords F n u m) (cells (F + 1) fun _ => L) (fw.map fun a : ℕ => (a : ℤ)) (atoms.map fun a : ℕ => (a : ℤ)) axes eff τ = .ok (some v) ∧
      |v - sampleVar (reportedTotals axes.toFinset L u fw atoms (fun _ => 1) F τ) / eff| ≤
        varError γ (msdError γ (totalError ε γ (dispError ε γ C A B M F) (4 * M) 1 atoms.length) (atoms.length * (4 * M)) (3 * (atoms.length * (4 * M)) ^ 2)) (3 * (atoms.length * (4 * M)) ^ 2)
          (sampleVar (reportedTotals axes.toFinset L u fw atoms (fun _ => 1) F τ)) / eff := by
  have hε := hP.nonneg
  have hγ0 : 0 ≤ γ := by
    have : (1 : K) ≤ (1 + ε) ^ ((ord axes.length).depth + 1) := one_le_pow₀ (by linarith)
    linarith
  obtain ⟨a, b, ha, e0, e1, hb, hab, hbM⟩ := windows_near hP ho hat hfw hne hτ1 hτ.le hγ0 hγf
  have hlen := List.length_pos_iff.2 hne
  have hb0 : b.n0 = atoms.length := hb.1
  obtain ⟨v, hv, he⟩ := squaresVar_near (γ := γ) (eff := eff) (a := ⟨1, a.n1, fun _ k x => sumFl fl ord ((List.range a.n0).map fun i => a.get i k x)⟩) (b := totalArr (fun _ => 1) b)
    (ω := totalError ε γ (dispError ε γ C A B M F) (4 * M) 1 atoms.length) (W := atoms.length * (4 * M)) hP.rel hε ho hax hnd rfl e1 (by unfold totalArr; simp only [one_mul]; rw [hb.2.1]; omega)
    (fun s _ k hk l => by
      rw [e0, hb0]
      unfold totalArr
      simp only
      rw [hb0]
      exact total_near hP.rel hε ho hlen zero_le_one hγs (x := fun i => a.get i k l) (y := fun i => b.get i k l) (q := fun _ => 1)
        (fun i hi => hab i (by omega) k hk l) (fun i hi => hbM i (by omega) k hk l) (fun i _ => by simp)
        (fun i hi => by simp only [one_mul, sub_self, abs_zero]; positivity))
    (fun s _ k hk l => by
      unfold totalArr
      simp only
      rw [hb0]
      have := total_bound (q := fun _ => (1 : K)) (y := fun i => b.get i k l) (Q := 1) (fun i _ => by simp) (fun i (hi : i < atoms.length) => hbM i (by omega) k hk l) zero_le_one
      rwa [one_mul] at this)
    heff hγa (by unfold totalArr; simp only [one_mul]; rw [hb.2.1]; exact hγ)
  rw [dSquared_totals hnd hb] at he
  refine ⟨v, ?_, he⟩
  unfold mstdVarFl
  rw [ha]
  simp only [bind, Except.bind]
  rw [collMotionFl_eq, hv]

/-- **C116, from coordinates to the variance of the MSCD.** -/
theorem C116_mscd {fl : K → K} {ε : K} {inv : M3 K → PyM (M3 K)} {F n : ℕ} {L : M3 K} {u : ℕ → ℕ → V3 K} {m : ℕ → ℕ → Fin 3 → ℤ} {C A B κ M : K} (hP : FlPath fl ε inv F n L u m C A B κ M)
    {ord : ℕ → SumOrder} (ho : ValidOrder ord) (atoms fw : List ℕ) (hat : ∀ a ∈ atoms, a < n) (hfw : ∀ a ∈ fw, a < n) (hne : atoms ≠ [])
    (charge : Charge K) (hlq : ∀ l, charge = .array l → l.length = atoms.length) (Q : K) (hQ : ∀ i, |charge.of i| ≤ Q)
    (τ : ℕ) (hτ1 : 1 ≤ τ) (hτ : τ < F) (eff : K) (heff : 0 < eff) (γ : K) (hγf : fw ≠ [] → (1 + ε) ^ ((ord fw.length).depth + 1) - 1 ≤ γ) (hγs : (1 + ε) ^ (ord atoms.length).depth - 1 ≤ γ)
    (hγa : (1 + ε) ^ ((ord 3).depth + 1) - 1 ≤ γ) (hγ : (1 + ε) ^ ((ord (F - τ + 1)).depth + 5) - 1 ≤ γ) :
    ∃ v, mscdVarFl fl inv ord (storedCoords F n u m) (cells (F + 1) fun _ => L) (fw.map fun a : ℕ => (a : ℤ)) (atoms.map fun a : ℕ => (a : ℤ)) charge eff τ = .ok (some v) ∧
      |v - sampleVar (reportedTotals Finset.univ L u fw atoms charge.of F τ) / eff| ≤
        varError γ (msdError γ (totalError ε γ (dispError ε γ C A B M F) (4 * M) Q atoms.length) (atoms.length * (Q * (4 * M))) (3 * (atoms.length * (Q * (4 * M))) ^ 2)) (3 * (atoms.length * (Q * (4 * M))) ^ 2)
          (sampleVar (reportedTotals Finset.univ L u fw atoms charge.of F τ)) / eff := by
  have hε := hP.nonneg
  have hγ0 : 0 ≤ γ := by
    have : (1 : K) ≤ (1 + ε) ^ ((ord 3).depth + 1) := one_le_pow₀ (by linarith)
    linarith
  have hQ0 : 0 ≤ Q := le_trans (abs_nonneg _) (hQ 0)
  obtain ⟨a, b, ha, e0, e1, hb, hab, hbM⟩ := windows_near hP ho hat hfw hne hτ1 hτ.le hγ0 hγf
  have hlen := List.length_pos_iff.2 hne
  have hb0 : b.n0 = atoms.length := hb.1
  set q := charge.expand a.n0 with hq
  have hql : q.length = a.n0 := by
    rw [hq]
    cases charge with
    | scalar c => simp [Charge.expand]
    | array l => simp only [Charge.expand]; rw [hlq l rfl, e0, hb0]
  have hqi : ∀ i < atoms.length, q.getD i 0 = charge.of i := by
    intro i hi
    rw [hq]
    cases charge with
    | scalar c => simp [Charge.expand, Charge.of, e0, hb0, hi]
    | array l => rfl
  obtain ⟨v, hv, he⟩ := squaresVar_near (γ := γ) (eff := eff) (a := ⟨1, a.n1, fun _ k x => sumFl fl ord ((List.range a.n0).map fun i => fl (q.getD i 0 * a.get i k x))⟩) (b := totalArr charge.of b)
    (ω := totalError ε γ (dispError ε γ C A B M F) (4 * M) Q atoms.length) (W := atoms.length * (Q * (4 * M))) (axes := List.finRange 3) hP.rel hε ho (by decide) (by decide) rfl e1
    (by unfold totalArr; simp only [one_mul]; rw [hb.2.1]; omega)
    (fun s _ k hk l => by
      rw [e0, hb0]
      unfold totalArr
      simp only
      rw [hb0]
      exact total_near hP.rel hε ho hlen hQ0 hγs (x := fun i => a.get i k l) (y := fun i => b.get i k l) (q := charge.of)
        (fun i hi => hab i (by omega) k hk l) (fun i hi => hbM i (by omega) k hk l) (fun i _ => hQ i)
        (fun i hi => by simp only [hqi i hi]; exact hP.rel _))
    (fun s _ k hk l => by
      unfold totalArr
      simp only
      rw [hb0]
      exact total_bound (fun i _ => hQ i) (fun i hi => hbM i (by omega) k hk l) hQ0)
    heff (by rw [List.length_finRange]; exact hγa) (by unfold totalArr; simp only [one_mul]; rw [hb.2.1]; exact hγ)
  have hf : (List.finRange 3).toFinset = (Finset.univ : Finset (Fin 3)) := by decide
  rw [dSquared_totals (by decide) hb, hf] at he
  refine ⟨v, ?_, he⟩
  unfold mscdVarFl
  rw [ha]
  simp only [bind, Except.bind]
  rw [← hq, chgMotionFl_eq fl ord q a hql]
  simp only
  rw [hv]

/-- **C116, non-Gaussian parameter.** For any displacements that are not all zero along the chosen axes the computed value is a number and differs from
`3 ⟨r⁴⟩ / (5 ⟨r²⟩²) - 1` by at most a relative error of that fraction and `ε`. -/
theorem C116_ngp {fl : K → K} {ε γ : K} (h : RelErr fl ε) (hε : 0 ≤ ε) {ord : ℕ → SumOrder} (ho : ValidOrder ord) (axes : List (Fin 3)) (hax : axes ≠ []) (hnd : axes.Nodup) (a : Arr3 K)
    (hmove : ∃ i < a.n0, ∃ k < a.n1, ∃ x ∈ axes, a.get i k x ≠ 0)
    (hγ : (1 + ε) ^ (2 * (ord axes.length).depth + 2 * (ord (a.n0 * a.n1)).depth + 6) - 1 ≤ γ) (h1 : γ < 1) :
    ∃ r, ngpFl fl ord (dSquaredFl fl ord axes a) = some r ∧
      |r - ngp (pairs a) (sqLen axes.toFinset a)| ≤ ((1 + γ) / (1 - γ) * (1 + ε) ^ 2 - 1) * (ngp (pairs a) (sqLen axes.toFinset a) + 1) + ε := by
  obtain ⟨i, hi, k, hk, x, hx, hne⟩ := hmove
  have hsq0 : ∀ v : V3 K, 0 ≤ (axes.map fun x => v x ^ 2).sum := fun v => List.sum_nonneg (by
    intro y hy
    obtain ⟨x, -, rfl⟩ := List.mem_map.mp hy
    exact sq_nonneg _)
  have hp1 : (1 : K) ≤ (1 + ε) ^ ((ord axes.length).depth + 1) := one_le_pow₀ (by linarith)
  set P := List.range a.n0 ×ˢ List.range a.n1 with hP
  have hPl : P.length = a.n0 * a.n1 := by simp [hP, List.length_product]
  have hpos : 0 < (P.map fun p => (axes.map fun x => a.get p.1 p.2 x ^ 2).sum).sum := by
    have hmem : (axes.map fun x => a.get i k x ^ 2).sum ∈ P.map fun p => (axes.map fun x => a.get p.1 p.2 x ^ 2).sum :=
      List.mem_map.mpr ⟨(i, k), by rw [hP, List.mem_product, List.mem_range, List.mem_range]; exact ⟨hi, hk⟩, rfl⟩
    have hbig := List.single_le_sum (l := P.map fun p => (axes.map fun x => a.get p.1 p.2 x ^ 2).sum) (by
      intro y hy
      obtain ⟨p, -, rfl⟩ := List.mem_map.mp hy
      exact hsq0 _) _ hmem
    have hx0 : a.get i k x ^ 2 ≤ (axes.map fun x => a.get i k x ^ 2).sum := List.single_le_sum (by
      intro y hy
      obtain ⟨x, -, rfl⟩ := List.mem_map.mp hy
      exact sq_nonneg _) _ (List.mem_map.mpr ⟨x, hx, rfl⟩)
    have : 0 < a.get i k x ^ 2 := lt_of_le_of_ne (sq_nonneg _) (Ne.symm (pow_ne_zero 2 hne))
    linarith
  obtain ⟨r, hr, he⟩ := ngpFl_near h hε ho (l := P) (f := fun p => sumFl fl ord (axes.map fun x => fl (a.get p.1 p.2 x ^ 2)))
    (g := fun p => (axes.map fun x => a.get p.1 p.2 x ^ 2).sum) hp1 (fun p _ => ⟨hp1, hsq0 _, sumFl_squares h hε ho hax (a.get p.1 p.2)⟩) hpos (by
      refine le_trans (le_of_eq ?_) hγ
      rw [hPl, ← pow_mul, ← pow_add]
      congr 2
      ring) h1
  refine ⟨r, by rw [dSquaredFl_product]; exact hr, ?_⟩
  have hs := fun φ => dSquared_map_sum hnd a φ
  simp only [dSquared_product, ← hP, List.map_map, Function.comp_def] at hs
  have hN : ngp (pairs a) (sqLen axes.toFinset a) =
      3 * ((P.map fun p => (axes.map fun x => a.get p.1 p.2 x ^ 2).sum ^ 2).sum / P.length) / (5 * ((P.map fun p => (axes.map fun x => a.get p.1 p.2 x ^ 2).sum).sum / P.length) ^ 2) - 1 := by
    unfold ngp meanOn
    rw [hs fun y => y ^ 2, hs fun y => y, pairs_card, hPl]
  rw [hN, sub_add_cancel]
  exact he

/-! ### Examples -/

/-- `C116_msd`, `C116_mstd` and `C116_mscd` apply in binary64 (the variance of the MSD is about 610 / eff). -/
example : (∃ v, msdVarFl fl64 (fun _ => .ok exFlInv64) seqOrder (storedCoords 4 2 exFlTrue exFlImages) (cells 5 fun _ => exFlBox) [1] [0] [0, 1, 2] 4 1 = .ok (some v) ∧
      |v - sampleVar (reportedSquares Finset.univ exFlBox exFlTrue [1] [0] 4 1) / 4| ≤ 1 / 10 ^ 3) ∧
    (∃ v, mstdVarFl fl64 (fun _ => .ok exFlInv64) seqOrder (storedCoords 4 2 exFlTrue exFlImages) (cells 5 fun _ => exFlBox) [1] [0] [0, 1, 2] 4 1 = .ok (some v) ∧
      |v - sampleVar (reportedTotals Finset.univ exFlBox exFlTrue [1] [0] (fun _ => 1) 4 1) / 4| ≤ 1 / 10 ^ 3) ∧
    (∃ v, mscdVarFl fl64 (fun _ => .ok exFlInv64) seqOrder (storedCoords 4 2 exFlTrue exFlImages) (cells 5 fun _ => exFlBox) [1] [0] (.scalar (-2)) 4 1 = .ok (some v) ∧
      |v - sampleVar (reportedTotals Finset.univ exFlBox exFlTrue [1] [0] (fun _ => -2) 4 1) / 4| ≤ 1 / 10 ^ 3) ∧
    500 < sampleVar (reportedSquares Finset.univ exFlBox exFlTrue [1] [0] 4 1) := by
  have hu : ([0, 1, 2] : List (Fin 3)).toFinset = Finset.univ := by decide
  refine ⟨?_, ?_, ?_, ?_⟩
  · obtain ⟨r, hr, he⟩ := C116_msd exFl_path seqOrder_valid [0] [1] (by decide) (by decide) (by decide) [0, 1, 2] (by decide) (by decide) 1 le_rfl (by norm_num) (by decide) 4 (by norm_num) (1 / 10 ^ 14)
      (fun _ => by decide +kernel) (by decide +kernel) (by decide +kernel)
    rw [hu] at he
    refine ⟨r, hr, le_trans he ?_⟩
    unfold varError msdError dispError windowError driftError pathError stepError reportedSquares sampleVar lengthSq trueMove meanOver cart
    decide +kernel
  · obtain ⟨r, hr, he⟩ := C116_mstd exFl_path seqOrder_valid [0] [1] (by decide) (by decide) (by decide) [0, 1, 2] (by decide) (by decide) 1 le_rfl (by norm_num) 4 (by norm_num) (1 / 10 ^ 14)
      (fun _ => by decide +kernel) (by decide +kernel) (by decide +kernel) (by decide +kernel)
    rw [hu] at he
    refine ⟨r, hr, le_trans he ?_⟩
    unfold varError msdError totalError dispError windowError driftError pathError stepError reportedTotals sampleVar lengthSq totalMove trueMove meanOver cart
    decide +kernel
  · obtain ⟨r, hr, he⟩ := C116_mscd exFl_path seqOrder_valid [0] [1] (by decide) (by decide) (by decide) (.scalar (-2)) (fun l h => by cases h) 2 (fun i => by simp [Charge.of]) 1 le_rfl
      (by norm_num) 4 (by norm_num) (1 / 10 ^ 14) (fun _ => by decide +kernel) (by decide +kernel) (by decide +kernel) (by decide +kernel)
    refine ⟨r, hr, le_trans he ?_⟩
    unfold varError msdError totalError dispError windowError driftError pathError stepError reportedTotals sampleVar lengthSq totalMove trueMove meanOver cart Charge.of
    decide +kernel
  · unfold reportedSquares sampleVar lengthSq trueMove meanOver cart
    decide +kernel

/-- `C116_variance` and `C116_sign` in binary64: large values with a small spread. -/
example : ∃ r, varFl fl64 seqOrder [10 ^ 6, 10 ^ 6 + 1, 10 ^ 6 + 2] = some r ∧ |r - 1| ≤ 1 / 10 ^ 14 ∧ 0 < r := by
  have hfl := relErr_of_rounding (by norm_num) rounding_fl64
  obtain ⟨r, hr, he⟩ := C116_variance hfl (by norm_num) seqOrder_valid [10 ^ 6, 10 ^ 6 + 1, 10 ^ 6 + 2] (by norm_num)
  obtain ⟨r', hr', h0, hne⟩ := C116_sign hfl (by norm_num) seqOrder_valid [10 ^ 6, 10 ^ 6 + 1, 10 ^ 6 + 2] (by norm_num) (by decide +kernel)
  obtain rfl := Option.some.inj (hr.symm.trans hr')
  have hv : sampleVar ([10 ^ 6, 10 ^ 6 + 1, 10 ^ 6 + 2] : List ℚ) = 1 := by unfold sampleVar; decide +kernel
  rw [hv] at he
  refine ⟨r, hr, le_trans he ?_, lt_of_le_of_ne h0 fun h => ?_⟩
  · unfold meanAbs
    decide +kernel
  · have := hne h.symm (10 ^ 6) (by simp) (10 ^ 6 + 1) (by simp)
    norm_num at this

/-- `C116_ngp` in binary64. -/
example : ∃ r, ngpFl fl64 seqOrder (dSquaredFl fl64 seqOrder [0, 1, 2] ⟨2, 2, fun i k _ => if i = 0 then (k : ℚ) / 3 else 0⟩) = some r ∧ |r - 7 / 5| ≤ 1 / 10 ^ 13 := by
  obtain ⟨r, hr, he⟩ := C116_ngp (γ := 1 / 10 ^ 15 * 2) (relErr_of_rounding (by norm_num) rounding_fl64) (by norm_num) seqOrder_valid [0, 1, 2] (by decide) (by decide)
    ⟨2, 2, fun i k _ => if i = 0 then (k : ℚ) / 3 else 0⟩ ⟨0, by norm_num, 1, by norm_num, 0, by decide, by norm_num⟩ (by decide +kernel) (by norm_num)
  have hu : ([0, 1, 2] : List (Fin 3)).toFinset = Finset.univ := by decide
  have hv : ngp (pairs ⟨2, 2, fun i k _ => if i = 0 then (k : ℚ) / 3 else 0⟩) (sqLen Finset.univ ⟨2, 2, fun i k _ => if i = 0 then (k : ℚ) / 3 else 0⟩) = 7 / 5 := by
    unfold ngp meanOn sqLen pairs
    decide +kernel
  rw [hu, hv] at he
  exact ⟨r, hr, le_trans he (by norm_num)⟩

end Kinisi
