import Mathlib.Algebra.Order.BigOperators.Ring.Finset
import Mathlib.Algebra.Order.Chebyshev
import Mathlib.Tactic.LinearCombination
import Mathlib.Tactic.FieldSimp
import Verif.Spec.Relations
import Verif.Props.Observables

/-!
# C118: the self, total and charge displacements of one trajectory
-/

set_option linter.unusedSectionVars false
set_option linter.unusedVariables false

namespace Kinisi
open Spec
variable {K : Type} [Field K] [LinearOrder K] [IsStrictOrderedRing K] [FloorRing K] {G : Type}

/-! ## Sums -/

theorem sq_sum_pairs (s : Finset ℕ) (f : ℕ → K) :
    (∑ i ∈ s, f i) ^ 2 = ∑ i ∈ s, f i ^ 2 + ∑ i ∈ s, ∑ j ∈ s.erase i, f i * f j := by
  rw [pow_two, Finset.sum_mul_sum, ← Finset.sum_add_distrib]
  refine Finset.sum_congr rfl fun i hi => ?_
  rw [← Finset.add_sum_erase s (fun j => f i * f j) hi, pow_two]

theorem spread_sum (s : Finset ℕ) (f : ℕ → K) :
    ∑ i ∈ s, ∑ j ∈ s, (f i - f j) ^ 2 = 2 * ((s.card : K) * ∑ i ∈ s, f i ^ 2 - (∑ i ∈ s, f i) ^ 2) := by
  have h : ∀ i j, (f i - f j) ^ 2 = f i ^ 2 + f j ^ 2 - 2 * (f i * f j) := fun i j => by ring
  simp only [h, Finset.sum_sub_distrib, Finset.sum_add_distrib, Finset.sum_const, nsmul_eq_mul, ← Finset.mul_sum]
  rw [pow_two (∑ i ∈ s, f i), Finset.sum_mul_sum]
  simp only [← Finset.mul_sum]
  ring

/-- The difference to the bound, as a sum of squares. -/
theorem mstd_gap (A : Finset (Fin 3)) (a : Arr3 K) (h0 : 0 < a.n0) (h1 : 0 < a.n1) :
    (a.n0 : K) ^ 2 * msd A a - mstd A a =
      (∑ k ∈ Finset.range a.n1, ∑ x ∈ A, ∑ i ∈ Finset.range a.n0, ∑ j ∈ Finset.range a.n0, (a.get i k x - a.get j k x) ^ 2) / (2 * (a.n1 : K)) := by
  have hk : (a.n1 : K) ≠ 0 := by exact_mod_cast h1.ne'
  have hn : (a.n0 : K) ≠ 0 := by exact_mod_cast h0.ne'
  simp only [spread_sum, Finset.card_range, ← Finset.mul_sum, Finset.sum_sub_distrib]
  have hs : ∑ i ∈ Finset.range a.n0, ∑ k ∈ Finset.range a.n1, ∑ x ∈ A, a.get i k x ^ 2 =
      ∑ k ∈ Finset.range a.n1, ∑ x ∈ A, ∑ i ∈ Finset.range a.n0, a.get i k x ^ 2 := by
    rw [Finset.sum_comm]
    exact Finset.sum_congr rfl fun k _ => Finset.sum_comm
  unfold msd mstd
  rw [hs]
  field_simp

theorem mstd_le (A : Finset (Fin 3)) (a : Arr3 K) (h0 : 0 < a.n0) (h1 : 0 < a.n1) : mstd A a ≤ (a.n0 : K) ^ 2 * msd A a := by
  have := mstd_gap A a h0 h1
  have h : 0 ≤ (a.n0 : K) ^ 2 * msd A a - mstd A a := by
    rw [this]
    positivity
  linarith

theorem mstd_eq_iff (A : Finset (Fin 3)) (a : Arr3 K) (h0 : 0 < a.n0) (h1 : 0 < a.n1) :
    mstd A a = (a.n0 : K) ^ 2 * msd A a ↔ MoveTogether A a := by
  have hk : (2 * (a.n1 : K)) ≠ 0 := by
    have : (a.n1 : K) ≠ 0 := by exact_mod_cast h1.ne'
    positivity
  have : mstd A a = (a.n0 : K) ^ 2 * msd A a ↔ (a.n0 : K) ^ 2 * msd A a - mstd A a = 0 := by
    rw [sub_eq_zero, eq_comm]
  rw [this, mstd_gap A a h0 h1, div_eq_zero_iff, or_iff_left hk,
    Finset.sum_eq_zero_iff_of_nonneg fun k _ => by positivity]
  constructor
  · intro h k hkn i hi j hj x hx
    have e1 := (Finset.sum_eq_zero_iff_of_nonneg fun x _ => by positivity).mp (h k (Finset.mem_range.mpr hkn)) x hx
    have e2 := (Finset.sum_eq_zero_iff_of_nonneg fun i _ => by positivity).mp e1 i (Finset.mem_range.mpr hi)
    have e3 := (Finset.sum_eq_zero_iff_of_nonneg fun j _ => by positivity).mp e2 j (Finset.mem_range.mpr hj)
    exact sub_eq_zero.mp (pow_eq_zero_iff (two_ne_zero) |>.mp e3)
  · intro h k hkn
    refine Finset.sum_eq_zero fun x hx => Finset.sum_eq_zero fun i hi => Finset.sum_eq_zero fun j hj => ?_
    rw [h k (Finset.mem_range.mp hkn) i (Finset.mem_range.mp hi) j (Finset.mem_range.mp hj) x hx]
    ring

theorem mstd_split (A : Finset (Fin 3)) (a : Arr3 K) (h0 : 0 < a.n0) (h1 : 0 < a.n1) :
    mstd A a = (a.n0 : K) * msd A a + distinctPart A a := by
  have hk : (a.n1 : K) ≠ 0 := by exact_mod_cast h1.ne'
  have hn : (a.n0 : K) ≠ 0 := by exact_mod_cast h0.ne'
  have e : ∀ k, ∑ x ∈ A, (∑ i ∈ Finset.range a.n0, a.get i k x) ^ 2 =
      ∑ i ∈ Finset.range a.n0, ∑ x ∈ A, a.get i k x ^ 2 +
        ∑ i ∈ Finset.range a.n0, ∑ j ∈ (Finset.range a.n0).erase i, ∑ x ∈ A, a.get i k x * a.get j k x := by
    intro k
    simp only [sq_sum_pairs, Finset.sum_add_distrib]
    congr 1
    · exact Finset.sum_comm
    · rw [Finset.sum_comm]
      exact Finset.sum_congr rfl fun i _ => Finset.sum_comm
  unfold mstd msd distinctPart
  simp only [e, Finset.sum_add_distrib]
  rw [Finset.sum_comm (s := Finset.range a.n0) (t := Finset.range a.n1)]
  field_simp

theorem mscd_le (A : Finset (Fin 3)) (q : ℕ → K) (a : Arr3 K) (h0 : 0 < a.n0) (h1 : 0 < a.n1) :
    mscd A q a ≤ (∑ i ∈ Finset.range a.n0, q i ^ 2) * ((a.n0 : K) * msd A a) := by
  have hk : (0 : K) < a.n1 := by exact_mod_cast h1
  have hn : (a.n0 : K) ≠ 0 := by exact_mod_cast h0.ne'
  have hs : (a.n0 : K) * msd A a = (∑ k ∈ Finset.range a.n1, ∑ x ∈ A, ∑ i ∈ Finset.range a.n0, a.get i k x ^ 2) / (a.n1 : K) := by
    have : ∑ i ∈ Finset.range a.n0, ∑ k ∈ Finset.range a.n1, ∑ x ∈ A, a.get i k x ^ 2 =
        ∑ k ∈ Finset.range a.n1, ∑ x ∈ A, ∑ i ∈ Finset.range a.n0, a.get i k x ^ 2 := by
      rw [Finset.sum_comm]
      exact Finset.sum_congr rfl fun k _ => Finset.sum_comm
    unfold msd
    rw [this]
    field_simp
  rw [hs, ← mul_div_assoc, mscd]
  refine div_le_div_of_nonneg_right ?_ hk.le
  rw [Finset.mul_sum]
  refine Finset.sum_le_sum fun k _ => ?_
  rw [Finset.mul_sum]
  exact Finset.sum_le_sum fun x _ => Finset.sum_mul_sq_le_sq_mul_sq _ _ _

/-! ## C118 -/

/-- With two observations everywhere, no interval is skipped. -/
theorem recorded_all {disp ds : List (Arr3 K)} {sub : ℤ} {n : List K} {P : ℕ → Arr3 K → Prop} (c1 : pyStride sub disp = .ok ds)
    (h2 : ∀ a ∈ disp, 2 ≤ a.n0 * a.n1) (c3 : ∀ i < n.length, ∃ a, ds[i]? = some a ∧ P i a)
    (c4 : ∀ i, n.length ≤ i → ∀ a, ds[i]? = some a → a.n0 * a.n1 ≤ 1) : n.length = ds.length := by
  refine le_antisymm ?_ ?_
  · by_contra hlt
    obtain ⟨a, ha, -⟩ := c3 ds.length (by omega)
    rw [List.getElem?_eq_none le_rfl] at ha
    cases ha
  · by_contra hlt
    have hi : n.length < ds.length := by omega
    have := c4 n.length le_rfl _ (List.getElem?_eq_getElem hi)
    have hm := pyStride_mem c1 (List.getElem_mem hi)
    have := h2 _ hm
    omega

/-- The entries of two analyses of the same displacements at the same position. -/
theorem msd_mstd_entries (sq : K → K) (o : Oracle K G) (opt : BootOpts K) (hblock : opt.block = false) (g g₁ g₂ : G)
    (deltaT : List K) (disp : List (Arr3 K)) (nO : List K) (sub : ℤ) (d : String) (b b' : Boot K) (h2 : ∀ a ∈ disp, 2 ≤ a.n1) (h0 : ∀ a ∈ disp, 0 < a.n0)
    (h : msdBootstrap sq o opt g deltaT disp nO sub d = .ok (b, g₁))
    (h' : mstdBootstrap sq o opt g deltaT disp nO sub d = .ok (b', g₂)) :
    b'.n.length = b.n.length / 2 ∧
      ∃ ds, pyStride sub disp = .ok ds ∧ ∀ i < b'.n.length, b.dt[i]? = b'.dt[i]? ∧
        ∃ a ∈ disp, ds[i]? = some a ∧ b.n[i]? = some (msd (axesOf d) a) ∧ b'.n[i]? = some (mstd (axesOf d) a) := by
  obtain ⟨ds, dts, c1, c2, cl, c3, c4⟩ := C28_msd sq o opt hblock g g₁ deltaT disp nO sub d b h
  obtain ⟨ds', dts', c1', c2', c3', c4'⟩ := C29_mstd sq o opt hblock g g₂ deltaT disp nO sub d b' (first_half h2) h'
  rw [c1] at c1'
  rw [c2] at c2'
  obtain rfl := Except.ok.inj c1'
  obtain rfl := Except.ok.inj c2'
  have hmem : ∀ a ∈ ds, a ∈ disp := fun a ha => pyStride_mem c1 ha
  have hlen := recorded_all c1 (fun a ha => by have := Nat.mul_le_mul (h0 a ha) (h2 a ha); omega) c3 c4
  have hl' : b'.n.length = ds.length / 2 := by
    rw [c3', List.length_map, List.length_take]
    omega
  refine ⟨by rw [hl', hlen], ds, c1, fun i hi => ?_⟩
  rw [hl'] at hi
  obtain ⟨a, e1, e2, e3, e4⟩ := c3 i (by omega)
  refine ⟨?_, a, hmem a (List.mem_of_getElem? e1), e1, e3, ?_⟩
  · rw [e4, c4', List.getElem?_take, if_pos hi]
  · rw [c3', List.getElem?_map, List.getElem?_take, if_pos hi, e1]
    rfl

/-- **C118.** At each interval of the total displacement, which is also one of the self displacement: the MSTD is the number of atoms times the MSD
plus the correlations between different atoms; it is at most the number of atoms squared times the MSD, with equality exactly when all atoms move
alike. -/
theorem C118_self_total (sq : K → K) (o : Oracle K G) (opt : BootOpts K) (hblock : opt.block = false) (g g₁ g₂ : G)
    (deltaT : List K) (disp : List (Arr3 K)) (nO : List K) (sub : ℤ) (d : String) (b b' : Boot K) (N : ℕ) (hN : 0 < N) (h2 : ∀ a ∈ disp, 2 ≤ a.n1)
    (h0 : ∀ a ∈ disp, a.n0 = N) (h : msdBootstrap sq o opt g deltaT disp nO sub d = .ok (b, g₁))
    (h' : mstdBootstrap sq o opt g deltaT disp nO sub d = .ok (b', g₂)) :
    b'.n.length = b.n.length / 2 ∧
      ∃ ds, pyStride sub disp = .ok ds ∧ ∀ i < b'.n.length, b.dt[i]? = b'.dt[i]? ∧
        ∃ a m t, ds[i]? = some a ∧ b.n[i]? = some m ∧ b'.n[i]? = some t ∧ t = N * m + distinctPart (axesOf d) a ∧
          0 ≤ t ∧ t ≤ N ^ 2 * m ∧ (t = N ^ 2 * m ↔ MoveTogether (axesOf d) a) := by
  obtain ⟨hl, ds, hs, hi⟩ := msd_mstd_entries sq o opt hblock g g₁ g₂ deltaT disp nO sub d b b' h2 (fun a ha => by rw [h0 a ha]; exact hN) h h'
  refine ⟨hl, ds, hs, fun i hib => ?_⟩
  obtain ⟨e1, a, ha, e2, e3, e4⟩ := hi i hib
  have hn := h0 a ha
  have p0 : 0 < a.n0 := by omega
  have p1 : 0 < a.n1 := by have := h2 a ha; omega
  subst hn
  exact ⟨e1, a, _, _, e2, e3, e4, mstd_split _ a p0 p1, by unfold mstd; positivity, mstd_le _ a p0 p1, mstd_eq_iff _ a p0 p1⟩

/-- **C118, one atom.** The MSTD of a single atom is the first half of its MSD. -/
theorem C118_one_atom (sq : K → K) (o : Oracle K G) (opt : BootOpts K) (hblock : opt.block = false) (g g₁ g₂ : G)
    (deltaT : List K) (disp : List (Arr3 K)) (nO : List K) (sub : ℤ) (d : String) (b b' : Boot K) (h2 : ∀ a ∈ disp, 2 ≤ a.n1)
    (h0 : ∀ a ∈ disp, a.n0 = 1) (h : msdBootstrap sq o opt g deltaT disp nO sub d = .ok (b, g₁))
    (h' : mstdBootstrap sq o opt g deltaT disp nO sub d = .ok (b', g₂)) :
    b'.n = b.n.take (b.n.length / 2) := by
  obtain ⟨hl, ds, hs, hi⟩ := C118_self_total sq o opt hblock g g₁ g₂ deltaT disp nO sub d b b' 1 one_pos h2 h0 h h'
  apply List.ext_getElem?
  intro i
  rw [List.getElem?_take, ← hl]
  split
  · rename_i hib
    obtain ⟨-, a, m, t, e1, e2, e3, -, -, -, e4⟩ := hi i hib
    rw [e2, e3, e4.mpr fun k _ i hi j hj x _ => ?_]
    · simp
    · have hn := h0 a (pyStride_mem hs (List.mem_of_getElem? e1))
      obtain rfl : i = 0 := by omega
      obtain rfl : j = 0 := by omega
      rfl
  · exact List.getElem?_eq_none (by omega)

/-- **C118, charges.** The MSCD is at most the sum of the squared charges times the number of ions times the three-dimensional MSD. -/
theorem C118_charge (sq : K → K) (o : Oracle K G) (opt : BootOpts K) (hblock : opt.block = false) (g g₁ g₂ : G)
    (deltaT : List K) (disp : List (Arr3 K)) (charge : Charge K) (nO : List K) (sub : ℤ) (d : String) (hd : axesOf d = Finset.univ) (b b' : Boot K) (N : ℕ)
    (hN : 0 < N) (h2 : ∀ a ∈ disp, 2 ≤ a.n1) (h0 : ∀ a ∈ disp, a.n0 = N) (hc : ∀ l, charge = .array l → l.length = N)
    (h : msdBootstrap sq o opt g deltaT disp nO sub d = .ok (b, g₁))
    (h' : mscdBootstrap sq o opt g deltaT disp charge nO sub d = .ok (b', g₂)) :
    b'.n.length = b.n.length / 2 ∧ ∀ i < b'.n.length, b.dt[i]? = b'.dt[i]? ∧
      ∃ m c, b.n[i]? = some m ∧ b'.n[i]? = some c ∧ 0 ≤ c ∧ c ≤ (∑ j ∈ Finset.range N, charge.of j ^ 2) * (N * m) := by
  obtain ⟨ds, dts, c1, c2, cl, c3, c4⟩ := C28_msd sq o opt hblock g g₁ deltaT disp nO sub d b h
  obtain ⟨ds', dts', c1', c2', c3', c4'⟩ := C31_mscd_ignores_dimension sq o opt hblock g g₂ deltaT disp charge nO sub d b' N (first_half h2) h0 hc h'
  rw [c1] at c1'
  rw [c2] at c2'
  obtain rfl := Except.ok.inj c1'
  obtain rfl := Except.ok.inj c2'
  have hlen := recorded_all c1 (fun a ha => by rw [h0 a ha]; have := Nat.mul_le_mul hN (h2 a ha); omega) c3 c4
  have hl' : b'.n.length = ds.length / 2 := by
    rw [c3', List.length_map, List.length_take]
    omega
  refine ⟨by rw [hl', hlen], fun i hi => ?_⟩
  rw [hl'] at hi
  obtain ⟨a, e1, e2, e3, e4⟩ := c3 i (by omega)
  have ha := pyStride_mem c1 (List.mem_of_getElem? e1)
  have hn := h0 a ha
  have p1 : 0 < a.n1 := by have := h2 a ha; omega
  rw [hd] at e3
  refine ⟨by rw [e4, c4', List.getElem?_take, if_pos hi], _, mscd Finset.univ charge.of a, e3, ?_, by unfold mscd; positivity, ?_⟩
  · rw [c3', List.getElem?_map, List.getElem?_take, if_pos hi, e1]
    rfl
  · subst hn
    exact mscd_le _ _ a hN p1

/-! ## Examples -/

/-- Two atoms; the second stays where it is. -/
def exMoveStay (n1 : ℕ) : Arr3 ℚ := ⟨2, n1, fun i k => if i = 0 then ![(k : ℚ) + 1, 2, 0] else ![0, 0, 0]⟩

example : ∃ b b', msdBootstrap id (exOracle ℚ) (exOpts ℚ) () [1, 2, 3, 4] (List.replicate 4 (exMoveStay 3)) [5, 4, 3, 2] 1 "xyz" = .ok (b, ()) ∧
    mstdBootstrap id (exOracle ℚ) (exOpts ℚ) () [1, 2, 3, 4] (List.replicate 4 (exMoveStay 3)) [5, 4, 3, 2] 1 "xyz" = .ok (b', ()) ∧
    b'.n.length = 2 ∧ b.n.length = 4 ∧ ∀ i < b'.n.length, ∃ m t, b.n[i]? = some m ∧ b'.n[i]? = some t ∧ t < 2 ^ 2 * m := by
  obtain ⟨b, hb⟩ := exRun_ok (x := msdBootstrap id (exOracle ℚ) (exOpts ℚ) () [1, 2, 3, 4] (List.replicate 4 (exMoveStay 3)) [5, 4, 3, 2] 1 "xyz") (by decide +kernel)
  obtain ⟨b', hb'⟩ := exRun_ok (x := mstdBootstrap id (exOracle ℚ) (exOpts ℚ) () [1, 2, 3, 4] (List.replicate 4 (exMoveStay 3)) [5, 4, 3, 2] 1 "xyz") (by decide +kernel)
  obtain ⟨hl, ds, hs, hi⟩ := C118_self_total _ _ _ rfl _ _ _ _ _ _ 1 _ b b' 2 (by norm_num)
    (by intro a ha; rw [List.eq_of_mem_replicate ha]; decide) (by intro a ha; rw [List.eq_of_mem_replicate ha]; rfl) hb hb'
  have h4 : (match msdBootstrap id (exOracle ℚ) (exOpts ℚ) () [1, 2, 3, 4] (List.replicate 4 (exMoveStay 3)) [5, 4, 3, 2] 1 "xyz" with
    | .ok r => r.1.n.length | .error _ => 0) = 4 := by decide +kernel
  rw [hb] at h4
  dsimp only at h4
  refine ⟨b, b', hb, hb', by omega, h4, fun i hib => ?_⟩
  obtain ⟨-, a, m, t, e1, e2, e3, -, -, e4, e5⟩ := hi i hib
  refine ⟨m, t, e2, e3, lt_of_le_of_ne (by exact_mod_cast e4) fun he => ?_⟩
  have ha : a = exMoveStay 3 := List.eq_of_mem_replicate (pyStride_mem hs (List.mem_of_getElem? e1))
  subst ha
  have := e5.mp (by exact_mod_cast he) 0 (by decide) 0 (by decide) 1 (by decide) 0 (by decide +kernel)
  simp [exMoveStay] at this

/-- `C118_one_atom` -/
example : ∃ b b', msdBootstrap id (exOracle ℚ) (exOpts ℚ) () [1, 2, 3, 4] (List.replicate 4 (exArr ℚ 3)) [5, 4, 3, 2] 1 "xy" = .ok (b, ()) ∧
    mstdBootstrap id (exOracle ℚ) (exOpts ℚ) () [1, 2, 3, 4] (List.replicate 4 (exArr ℚ 3)) [5, 4, 3, 2] 1 "xy" = .ok (b', ()) ∧
    b'.n = b.n.take (b.n.length / 2) := by
  obtain ⟨b, hb⟩ := exRun_ok (x := msdBootstrap id (exOracle ℚ) (exOpts ℚ) () [1, 2, 3, 4] (List.replicate 4 (exArr ℚ 3)) [5, 4, 3, 2] 1 "xy") (by decide +kernel)
  obtain ⟨b', hb'⟩ := exRun_ok (x := mstdBootstrap id (exOracle ℚ) (exOpts ℚ) () [1, 2, 3, 4] (List.replicate 4 (exArr ℚ 3)) [5, 4, 3, 2] 1 "xy") (by decide +kernel)
  exact ⟨b, b', hb, hb', C118_one_atom _ _ _ rfl _ _ _ _ _ _ 1 _ b b' (by intro a ha; rw [List.eq_of_mem_replicate ha]; decide)
    (by intro a ha; rw [List.eq_of_mem_replicate ha]; rfl) hb hb'⟩

/-- `C118_charge` -/
example : ∃ b b', msdBootstrap id (exOracle ℚ) (exOpts ℚ) () [1, 2, 3, 4] (List.replicate 4 (exMoveStay 3)) [5, 4, 3, 2] 1 "xyz" = .ok (b, ()) ∧
    mscdBootstrap id (exOracle ℚ) (exOpts ℚ) () [1, 2, 3, 4] (List.replicate 4 (exMoveStay 3)) (.array [1, -2]) [5, 4, 3, 2] 1 "xyz" = .ok (b', ()) ∧
    ∀ i < b'.n.length, ∃ m c, b.n[i]? = some m ∧ b'.n[i]? = some c ∧ c ≤ 5 * (2 * m) := by
  obtain ⟨b, hb⟩ := exRun_ok (x := msdBootstrap id (exOracle ℚ) (exOpts ℚ) () [1, 2, 3, 4] (List.replicate 4 (exMoveStay 3)) [5, 4, 3, 2] 1 "xyz") (by decide +kernel)
  obtain ⟨b', hb'⟩ := exRun_ok (x := mscdBootstrap id (exOracle ℚ) (exOpts ℚ) () [1, 2, 3, 4] (List.replicate 4 (exMoveStay 3)) (.array [1, -2]) [5, 4, 3, 2] 1 "xyz") (by decide +kernel)
  obtain ⟨hl, hi⟩ := C118_charge _ _ _ rfl _ _ _ _ _ (.array [1, -2]) _ 1 "xyz" (by decide +kernel) b b' 2 (by norm_num)
    (by intro a ha; rw [List.eq_of_mem_replicate ha]; decide) (by intro a ha; rw [List.eq_of_mem_replicate ha]; rfl) (by intro l hl; cases hl; rfl) hb hb'
  refine ⟨b, b', hb, hb', fun i hib => ?_⟩
  obtain ⟨-, m, c, e1, e2, -, e3⟩ := hi i hib
  refine ⟨m, c, e1, e2, ?_⟩
  have : (∑ j ∈ Finset.range 2, (Charge.array [1, -2] : Charge ℚ).of j ^ 2) = 5 := by
    simp [Finset.sum_range_succ, Charge.of]
    norm_num
  rw [this] at e3
  exact_mod_cast e3

end Kinisi
