import Verif.Spec.Statistics
import Mathlib.Probability.Independence.Integration
import Mathlib.Probability.Independence.InfinitePi
import Mathlib.Probability.Distributions.Gaussian.Real
import Mathlib.Tactic.LinearCombination
import Mathlib.Tactic.Ring
import Mathlib.Tactic.FieldSimp
import Mathlib.Tactic.Linarith

/-!
# Covariances of squared displacements over windows of a random walk
-/

set_option linter.unusedSectionVars false
set_option linter.unusedVariables false

namespace Kinisi
open MeasureTheory ProbabilityTheory Spec

variable {Ω : Type} [MeasurableSpace Ω] {μ : Measure Ω} [IsProbabilityMeasure μ] {ι : Type} [DecidableEq ι]

/-- Displacement over the set `S` of steps. -/
def moveOver (ξ : ι → Ω → ℝ) (S : Finset ι) (ω : Ω) : ℝ := ∑ i ∈ S, ξ i ω

instance holder442 : ENNReal.HolderTriple 4 4 2 where
  inv_add_inv_eq_inv := by
    have h4 : (4 : ENNReal) = 2 * 2 := by norm_num
    rw [← two_mul, h4, ENNReal.mul_inv (by simp) (by simp), ← mul_assoc, ENNReal.mul_inv_cancel (by simp) (by simp), one_mul]

theorem moveOver_measurable {ξ : ι → Ω → ℝ} (h : RandomWalk μ ξ) (S : Finset ι) : Measurable (moveOver ξ S) := by
  unfold moveOver
  exact Finset.measurable_fun_sum _ fun i _ => h.meas i

theorem moveOver_memLp {ξ : ι → Ω → ℝ} (h : RandomWalk μ ξ) (S : Finset ι) : MemLp (moveOver ξ S) 4 μ := by
  unfold moveOver
  exact memLp_finsetSum _ fun i _ => h.moment i

theorem moveOver_mean {ξ : ι → Ω → ℝ} (h : RandomWalk μ ξ) (S : Finset ι) : ∫ ω, moveOver ξ S ω ∂μ = 0 := by
  unfold moveOver
  rw [integral_finsetSum _ fun i _ => (h.moment i).integrable (by norm_num)]
  exact Finset.sum_eq_zero fun i _ => h.mean i

theorem mul_memLp {X Y : Ω → ℝ} (hX : MemLp X 4 μ) (hY : MemLp Y 4 μ) : MemLp (fun ω => X ω * Y ω) 2 μ := hY.mul' hX

theorem moveOver_indep {ξ : ι → Ω → ℝ} (h : RandomWalk μ ξ) {S T : Finset ι} (hST : Disjoint S T) :
    IndepFun (moveOver ξ S) (moveOver ξ T) μ := by
  have := h.indep.indepFun_finset S T hST h.meas
  have := this.comp (φ := fun f : S → ℝ => ∑ i, f i) (ψ := fun f : T → ℝ => ∑ i, f i)
    (Finset.measurable_fun_sum _ fun i _ => measurable_pi_apply i) (Finset.measurable_fun_sum _ fun i _ => measurable_pi_apply i)
  convert this using 1
  · funext ω; exact (Finset.sum_coe_sort S fun i => ξ i ω).symm
  · funext ω; exact (Finset.sum_coe_sort T fun i => ξ i ω).symm

/-- Two independent variables, one of mean zero: the covariance of `(A + B)²` and `A²`. -/
theorem cov_sq_add {A B : Ω → ℝ} (hA : Measurable A) (hB : Measurable B) (h4A : MemLp A 4 μ) (h4B : MemLp B 4 μ) (hi : IndepFun A B μ)
    (hB0 : ∫ ω, B ω ∂μ = 0) : cov[fun ω => (A ω + B ω) ^ 2, fun ω => A ω ^ 2; μ] = Var[fun ω => A ω ^ 2; μ] := by
  have hAA := mul_memLp h4A h4A
  have hAB := mul_memLp h4A h4B
  have hBB := mul_memLp h4B h4B
  have e1 : (fun ω => (A ω + B ω) ^ 2) = (fun ω => A ω * A ω) + ((fun ω => 2 * (A ω * B ω)) + fun ω => B ω * B ω) := by
    funext ω; simp only [Pi.add_apply]; ring
  have e2 : (fun ω => A ω ^ 2) = fun ω => A ω * A ω := by funext ω; ring
  rw [e1, e2, covariance_add_left hAA ((hAB.const_mul 2).add hBB) hAA, covariance_add_left (hAB.const_mul 2) hBB hAA,
    covariance_const_mul_left, covariance_self (X := fun ω => A ω * A ω) (hA.mul hA).aemeasurable]
  have c1 : cov[fun ω => B ω * B ω, fun ω => A ω * A ω; μ] = 0 := by
    refine IndepFun.covariance_eq_zero ?_ hBB hAA
    exact hi.symm.comp (φ := fun x : ℝ => x * x) (ψ := fun x : ℝ => x * x) (by fun_prop) (by fun_prop)
  have c2 : cov[fun ω => A ω * B ω, fun ω => A ω * A ω; μ] = 0 := by
    rw [covariance_eq_sub hAB hAA]
    have i1 : ∫ ω, ((fun ω => A ω * B ω) * fun ω => A ω * A ω) ω ∂μ = (∫ ω, A ω ^ 3 ∂μ) * ∫ ω, B ω ∂μ := by
      rw [← hi.integral_fun_comp_mul_comp (f := fun x : ℝ => x ^ 3) (g := fun x : ℝ => x) hA.aemeasurable hB.aemeasurable
        (by fun_prop) (by fun_prop)]
      congr 1; funext ω; simp only [Pi.mul_apply]; ring
    have i2 : ∫ ω, A ω * B ω ∂μ = (∫ ω, A ω ∂μ) * ∫ ω, B ω ∂μ :=
      hi.integral_fun_comp_mul_comp (f := fun x : ℝ => x) (g := fun x : ℝ => x) hA.aemeasurable hB.aemeasurable (by fun_prop) (by fun_prop)
    rw [i1, i2, hB0]; ring
  rw [c1, c2]; ring

theorem moveOver_union {ξ : ι → Ω → ℝ} {S T : Finset ι} (h : T ⊆ S) (ω : Ω) :
    moveOver ξ S ω = moveOver ξ T ω + moveOver ξ (S \ T) ω := by
  unfold moveOver
  rw [add_comm, Finset.sum_sdiff h]

theorem cov_nested {ξ : ι → Ω → ℝ} (h : RandomWalk μ ξ) {S T : Finset ι} (hST : T ⊆ S) :
    cov[fun ω => moveOver ξ S ω ^ 2, fun ω => moveOver ξ T ω ^ 2; μ] = Var[fun ω => moveOver ξ T ω ^ 2; μ] := by
  have := cov_sq_add (moveOver_measurable h T) (moveOver_measurable h (S \ T)) (moveOver_memLp h T) (moveOver_memLp h (S \ T))
    (moveOver_indep h Finset.disjoint_sdiff) (moveOver_mean h _)
  rw [← this]
  congr 1
  funext ω
  rw [moveOver_union hST]

theorem cov_disjoint {ξ : ι → Ω → ℝ} (h : RandomWalk μ ξ) {S T : Finset ι} (hST : Disjoint S T) :
    cov[fun ω => moveOver ξ S ω ^ 2, fun ω => moveOver ξ T ω ^ 2; μ] = 0 := by
  have hS := moveOver_memLp h S
  have hT := moveOver_memLp h T
  refine IndepFun.covariance_eq_zero ?_ ?_ ?_
  · exact (moveOver_indep h hST).comp (φ := fun x : ℝ => x ^ 2) (ψ := fun x : ℝ => x ^ 2) (by fun_prop) (by fun_prop)
  · have := mul_memLp hS hS; simpa only [sq] using this
  · have := mul_memLp hT hT; simpa only [sq] using this

theorem sq_memLp {ξ : ι → Ω → ℝ} (h : RandomWalk μ ξ) (S : Finset ι) : MemLp (fun ω => moveOver ξ S ω ^ 2) 2 μ := by
  have := mul_memLp (moveOver_memLp h S) (moveOver_memLp h S); simpa only [sq] using this

/-- Every window of the second family lies in exactly one of the first and is disjoint from the others. -/
theorem cov_windows {ξ : ι → Ω → ℝ} (h : RandomWalk μ ξ) {α β : Type} (P : Finset α) (Q : Finset β) (S : α → Finset ι)
    (T : β → Finset ι) (p : β → α) (hp : ∀ b ∈ Q, p b ∈ P) (hsub : ∀ b ∈ Q, T b ⊆ S (p b))
    (hdis : ∀ b ∈ Q, ∀ a ∈ P, a ≠ p b → Disjoint (S a) (T b)) :
    cov[fun ω => ∑ a ∈ P, moveOver ξ (S a) ω ^ 2, fun ω => ∑ b ∈ Q, moveOver ξ (T b) ω ^ 2; μ] =
      ∑ b ∈ Q, Var[fun ω => moveOver ξ (T b) ω ^ 2; μ] := by
  rw [covariance_fun_sum_fun_sum' (fun a _ => sq_memLp h (S a)) (fun b _ => sq_memLp h (T b)), Finset.sum_comm]
  refine Finset.sum_congr rfl fun b hb => ?_
  rw [Finset.sum_eq_single_of_mem (p b) (hp b hb) fun a ha hab => cov_disjoint h (hdis b hb a ha hab), cov_nested h (hsub b hb)]

theorem var_windows {ξ : ι → Ω → ℝ} (h : RandomWalk μ ξ) {β : Type} (Q : Finset β) (T : β → Finset ι)
    (hdis : ∀ b ∈ Q, ∀ a ∈ Q, a ≠ b → Disjoint (T a) (T b)) :
    Var[fun ω => ∑ b ∈ Q, moveOver ξ (T b) ω ^ 2; μ] = ∑ b ∈ Q, Var[fun ω => moveOver ξ (T b) ω ^ 2; μ] := by
  rw [← covariance_self, cov_windows h Q Q T T id (fun b hb => hb) (fun b _ => Finset.Subset.refl _) hdis]
  exact (Finset.measurable_fun_sum _ fun b _ => (moveOver_measurable h (T b)).pow_const 2).aemeasurable

/-! ## Disjoint windows of equal length -/

/-- The steps of the `k`-th window of `τ` steps of atom `i` along axis `x`. -/
def blockSet (τ : ℕ) (w : ℕ × ℕ × Fin 3) : Finset (ℕ × ℕ × Fin 3) := (Finset.range τ).image fun s => (w.1, w.2.1 * τ + s, w.2.2)

theorem mem_blockSet {τ : ℕ} (hτ : 0 < τ) {w q : ℕ × ℕ × Fin 3} :
    q ∈ blockSet τ w ↔ q.1 = w.1 ∧ q.2.1 / τ = w.2.1 ∧ q.2.2 = w.2.2 := by
  obtain ⟨i, k, x⟩ := w
  obtain ⟨i', j, x'⟩ := q
  simp only [blockSet, Finset.mem_image, Finset.mem_range, Prod.mk.injEq]
  constructor
  · rintro ⟨s, hs, rfl, rfl, rfl⟩
    refine ⟨rfl, ?_, rfl⟩
    rw [Nat.mul_comm, Nat.mul_add_div hτ, Nat.div_eq_of_lt hs, Nat.add_zero]
  · rintro ⟨rfl, h, rfl⟩
    refine ⟨j % τ, Nat.mod_lt _ hτ, rfl, ?_, rfl⟩
    rw [← h, Nat.mul_comm]; exact Nat.div_add_mod j τ

theorem moveOver_block {ξ : ℕ × ℕ × Fin 3 → Ω → ℝ} (τ : ℕ) (w : ℕ × ℕ × Fin 3) (ω : Ω) :
    moveOver ξ (blockSet τ w) ω = blockMove ξ τ w.1 w.2.1 w.2.2 ω := by
  unfold moveOver blockSet blockMove
  rw [Finset.sum_image]
  intro s _ s' _ h
  have := (Prod.mk.inj (Prod.mk.inj h).2).1
  omega

/-- The windows of `N` atoms, `M` per atom. -/
def blockIdx (A : Finset (Fin 3)) (N M : ℕ) : Finset (ℕ × ℕ × Fin 3) := Finset.range N ×ˢ (Finset.range M ×ˢ A)

theorem blockMsd_eq (A : Finset (Fin 3)) (ξ : ℕ × ℕ × Fin 3 → Ω → ℝ) (N τ M : ℕ) :
    blockMsd A ξ N τ M = fun ω => ((N : ℝ) * M)⁻¹ * ∑ w ∈ blockIdx A N M, moveOver ξ (blockSet τ w) ω ^ 2 := by
  funext ω
  unfold blockMsd blockIdx
  rw [div_eq_inv_mul, Finset.sum_product]
  congr 1
  refine Finset.sum_congr rfl fun i _ => ?_
  rw [Finset.sum_product]
  refine Finset.sum_congr rfl fun k _ => Finset.sum_congr rfl fun x _ => ?_
  rw [moveOver_block]

theorem blockSet_disjoint {τ : ℕ} (hτ : 0 < τ) {a b : ℕ × ℕ × Fin 3} (h : a ≠ b) : Disjoint (blockSet τ a) (blockSet τ b) := by
  rw [Finset.disjoint_left]
  intro q ha hb
  rw [mem_blockSet hτ] at ha hb
  apply h
  obtain ⟨i, k, x⟩ := a
  obtain ⟨i', k', x'⟩ := b
  obtain ⟨h1, h2, h3⟩ := ha
  obtain ⟨h4, h5, h6⟩ := hb
  simp only at *
  rw [← h1, ← h2, ← h3, ← h4, ← h5, ← h6]

theorem blockMsd_var {ξ : ℕ × ℕ × Fin 3 → Ω → ℝ} (h : RandomWalk μ ξ) (A : Finset (Fin 3)) (N : ℕ) {τ : ℕ} (hτ : 0 < τ) (M : ℕ) :
    Var[blockMsd A ξ N τ M; μ] =
      (((N : ℝ) * M)⁻¹) ^ 2 * ∑ w ∈ blockIdx A N M, Var[fun ω => moveOver ξ (blockSet τ w) ω ^ 2; μ] := by
  rw [blockMsd_eq, variance_const_mul, var_windows h _ _ fun b _ a _ hab => blockSet_disjoint hτ hab]

theorem blockMsd_cov {ξ : ℕ × ℕ × Fin 3 → Ω → ℝ} (h : RandomWalk μ ξ) (A : Finset (Fin 3)) {N τ c M : ℕ} (hN : 0 < N) (hτ : 0 < τ)
    (hc : 0 < c) (hM : 0 < M) :
    cov[blockMsd A ξ N τ (c * M), blockMsd A ξ N (c * τ) M; μ] =
      Var[blockMsd A ξ N τ (c * M); μ] * (((N : ℝ) * ((c * M : ℕ) : ℝ)) / ((N : ℝ) * M)) := by
  rw [covariance_comm, blockMsd_var h A N hτ, blockMsd_eq, blockMsd_eq, covariance_const_mul_left, covariance_const_mul_right,
    cov_windows h (blockIdx A N M) (blockIdx A N (c * M)) (blockSet (c * τ)) (blockSet τ) fun b => (b.1, b.2.1 / c, b.2.2)]
  · have hN' : (N : ℝ) ≠ 0 := by exact_mod_cast hN.ne'
    have hM' : (M : ℝ) ≠ 0 := by exact_mod_cast hM.ne'
    have hc' : (c : ℝ) ≠ 0 := by exact_mod_cast hc.ne'
    push_cast
    field_simp
  · intro b hb
    simp only [blockIdx, Finset.mem_product, Finset.mem_range] at hb ⊢
    exact ⟨hb.1, (Nat.div_lt_iff_lt_mul hc).mpr (by rw [Nat.mul_comm]; exact hb.2.1), hb.2.2⟩
  · intro b _ q hq
    rw [mem_blockSet hτ] at hq
    rw [mem_blockSet (Nat.mul_pos hc hτ)]
    refine ⟨hq.1, ?_, hq.2.2⟩
    rw [Nat.mul_comm, ← Nat.div_div_eq_div_mul, hq.2.1]
  · intro b _ a _ hab
    rw [Finset.disjoint_left]
    intro q ha hb
    rw [mem_blockSet (Nat.mul_pos hc hτ), Nat.mul_comm, ← Nat.div_div_eq_div_mul] at ha
    rw [mem_blockSet hτ] at hb
    apply hab
    obtain ⟨i, k, x⟩ := a
    obtain ⟨h1, h2, h3⟩ := ha
    obtain ⟨h4, h5, h6⟩ := hb
    simp only at *
    rw [← h1, ← h2, ← h3, h4, h5, h6]

/-! ## Normal moments -/

theorem fourth_add {X Y : Ω → ℝ} (hX : Measurable X) (hY : Measurable Y) (h4X : MemLp X 4 μ) (h4Y : MemLp Y 4 μ) (hi : IndepFun X Y μ)
    (hX0 : ∫ ω, X ω ∂μ = 0) (hY0 : ∫ ω, Y ω ∂μ = 0) :
    ∫ ω, (X ω + Y ω) ^ 4 ∂μ = ∫ ω, X ω ^ 4 ∂μ + 6 * ((∫ ω, X ω ^ 2 ∂μ) * ∫ ω, Y ω ^ 2 ∂μ) + ∫ ω, Y ω ^ 4 ∂μ := by
  have hXX := mul_memLp h4X h4X
  have hXY := mul_memLp h4X h4Y
  have hYY := mul_memLp h4Y h4Y
  have a1 := hXX.integrable_mul hXX
  have a2 := (hXX.integrable_mul hXY).const_mul 4
  have a3 := (hXX.integrable_mul hYY).const_mul 6
  have a4 := (hXY.integrable_mul hYY).const_mul 4
  have a5 := hYY.integrable_mul hYY
  have e : ∀ ω, (X ω + Y ω) ^ 4 = ((fun ω => X ω * X ω) * fun ω => X ω * X ω) ω + (4 * ((fun ω => X ω * X ω) * fun ω => X ω * Y ω) ω +
      (6 * ((fun ω => X ω * X ω) * fun ω => Y ω * Y ω) ω + (4 * ((fun ω => X ω * Y ω) * fun ω => Y ω * Y ω) ω +
        ((fun ω => Y ω * Y ω) * fun ω => Y ω * Y ω) ω))) := by
    intro ω; simp only [Pi.mul_apply]; ring
  simp only [e]
  refine (integral_add a1 (a2.add (a3.add (a4.add a5)))).trans ?_
  rw [integral_add' a2 (a3.add (a4.add a5)), integral_add' a3 (a4.add a5), integral_add' a4 a5, integral_const_mul, integral_const_mul,
    integral_const_mul]
  have prod : ∀ (m n : ℕ), ∫ ω, X ω ^ m * Y ω ^ n ∂μ = (∫ ω, X ω ^ m ∂μ) * ∫ ω, Y ω ^ n ∂μ := fun m n =>
    hi.integral_fun_comp_mul_comp (f := fun x : ℝ => x ^ m) (g := fun x : ℝ => x ^ n) hX.aemeasurable hY.aemeasurable
      (by fun_prop) (by fun_prop)
  have b2 : ∫ ω, ((fun ω => X ω * X ω) * fun ω => X ω * Y ω) ω ∂μ = 0 := by
    have := prod 3 1
    simp only [pow_one, hY0, mul_zero] at this
    rw [← this]; congr 1; funext ω; simp only [Pi.mul_apply]; ring
  have b3 : ∫ ω, ((fun ω => X ω * X ω) * fun ω => Y ω * Y ω) ω ∂μ = (∫ ω, X ω ^ 2 ∂μ) * ∫ ω, Y ω ^ 2 ∂μ := by
    rw [← prod 2 2]; congr 1; funext ω; simp only [Pi.mul_apply]; ring
  have b4 : ∫ ω, ((fun ω => X ω * Y ω) * fun ω => Y ω * Y ω) ω ∂μ = 0 := by
    have := prod 1 3
    simp only [pow_one, hX0, zero_mul] at this
    rw [← this]; congr 1; funext ω; simp only [Pi.mul_apply]; ring
  have b1 : ∫ ω, ((fun ω => X ω * X ω) * fun ω => X ω * X ω) ω ∂μ = ∫ ω, X ω ^ 4 ∂μ := by
    congr 1; funext ω; simp only [Pi.mul_apply]; ring
  have b5 : ∫ ω, ((fun ω => Y ω * Y ω) * fun ω => Y ω * Y ω) ω ∂μ = ∫ ω, Y ω ^ 4 ∂μ := by
    congr 1; funext ω; simp only [Pi.mul_apply]; ring
  rw [b1, b2, b3, b4, b5]; ring

theorem second_add {X Y : Ω → ℝ} (hX : Measurable X) (hY : Measurable Y) (h4X : MemLp X 4 μ) (h4Y : MemLp Y 4 μ) (hi : IndepFun X Y μ)
    (hX0 : ∫ ω, X ω ∂μ = 0) :
    ∫ ω, (X ω + Y ω) ^ 2 ∂μ = ∫ ω, X ω ^ 2 ∂μ + ∫ ω, Y ω ^ 2 ∂μ := by
  have hXX := (mul_memLp h4X h4X).integrable (by norm_num)
  have hXY := ((mul_memLp h4X h4Y).integrable (by norm_num)).const_mul 2
  have hYY := (mul_memLp h4Y h4Y).integrable (by norm_num)
  have e : ∀ ω, (X ω + Y ω) ^ 2 = X ω * X ω + (2 * (X ω * Y ω) + Y ω * Y ω) := fun ω => by ring
  simp only [e]
  refine (integral_add hXX (hXY.add hYY)).trans ?_
  rw [integral_add' hXY hYY, integral_const_mul]
  have : ∫ ω, X ω * Y ω ∂μ = (∫ ω, X ω ∂μ) * ∫ ω, Y ω ∂μ :=
    hi.integral_fun_comp_mul_comp (f := fun x : ℝ => x) (g := fun x : ℝ => x) hX.aemeasurable hY.aemeasurable (by fun_prop) (by fun_prop)
  rw [this, hX0]
  simp only [sq]; ring

theorem moveOver_insert {ξ : ι → Ω → ℝ} {S : Finset ι} {i : ι} (hi : i ∉ S) (ω : Ω) :
    moveOver ξ (insert i S) ω = moveOver ξ {i} ω + moveOver ξ S ω := by
  unfold moveOver
  rw [Finset.sum_insert hi, Finset.sum_singleton]

theorem moveOver_second {ξ : ι → Ω → ℝ} (h : RandomWalk μ ξ) {v : ℝ} (hs : ∀ i, ∫ ω, ξ i ω ^ 2 ∂μ = v) (S : Finset ι) :
    ∫ ω, moveOver ξ S ω ^ 2 ∂μ = S.card * v := by
  induction S using Finset.induction_on with
  | empty => simp [moveOver]
  | insert i S hi ih =>
    have hd : Disjoint {i} S := Finset.disjoint_singleton_left.mpr hi
    simp only [moveOver_insert hi]
    rw [second_add (moveOver_measurable h _) (moveOver_measurable h _) (moveOver_memLp h _) (moveOver_memLp h _) (moveOver_indep h hd)
      (moveOver_mean h _), ih, Finset.card_insert_of_notMem hi]
    have : ∫ ω, moveOver ξ {i} ω ^ 2 ∂μ = v := by simp only [moveOver, Finset.sum_singleton]; exact hs i
    rw [this]; push_cast; ring

theorem moveOver_fourth {ξ : ι → Ω → ℝ} (h : RandomWalk μ ξ) {σ : ℝ} (hs : NormalMoments μ ξ σ) (S : Finset ι) :
    ∫ ω, moveOver ξ S ω ^ 4 ∂μ = 3 * (S.card : ℝ) ^ 2 * σ ^ 4 := by
  induction S using Finset.induction_on with
  | empty => simp [moveOver]
  | insert i S hi ih =>
    have hd : Disjoint {i} S := Finset.disjoint_singleton_left.mpr hi
    simp only [moveOver_insert hi]
    rw [fourth_add (moveOver_measurable h _) (moveOver_measurable h _) (moveOver_memLp h _) (moveOver_memLp h _) (moveOver_indep h hd)
      (moveOver_mean h _) (moveOver_mean h _), ih, moveOver_second h hs.second S, Finset.card_insert_of_notMem hi]
    have : ∫ ω, moveOver ξ {i} ω ^ 2 ∂μ = σ ^ 2 := by simp only [moveOver, Finset.sum_singleton]; exact hs.second i
    have h4 : ∫ ω, moveOver ξ {i} ω ^ 4 ∂μ = 3 * σ ^ 4 := by simp only [moveOver, Finset.sum_singleton]; exact hs.fourth i
    rw [this, h4]; push_cast; ring

theorem moveOver_var {ξ : ι → Ω → ℝ} (h : RandomWalk μ ξ) {σ : ℝ} (hs : NormalMoments μ ξ σ) (S : Finset ι) :
    Var[fun ω => moveOver ξ S ω ^ 2; μ] = 2 * (S.card : ℝ) ^ 2 * σ ^ 4 := by
  rw [variance_eq_sub (sq_memLp h S)]
  have : ∫ ω, ((fun ω => moveOver ξ S ω ^ 2) ^ 2) ω ∂μ = ∫ ω, moveOver ξ S ω ^ 4 ∂μ := by
    congr 1; funext ω; simp only [Pi.pow_apply]; ring
  rw [this, moveOver_fourth h hs, moveOver_second h hs.second]
  ring

theorem card_blockSet (τ : ℕ) (w : ℕ × ℕ × Fin 3) : (blockSet τ w).card = τ := by
  unfold blockSet
  rw [Finset.card_image_of_injective, Finset.card_range]
  intro s s' h
  have := (Prod.mk.inj (Prod.mk.inj h).2).1
  omega

theorem blockMsd_var_normal {ξ : ℕ × ℕ × Fin 3 → Ω → ℝ} (h : RandomWalk μ ξ) {σ : ℝ} (hs : NormalMoments μ ξ σ) (A : Finset (Fin 3))
    {N τ M : ℕ} (hN : 0 < N) (hτ : 0 < τ) (hM : 0 < M) :
    Var[blockMsd A ξ N τ M; μ] = 2 * A.card * σ ^ 4 * (τ : ℝ) ^ 2 / ((N : ℝ) * M) := by
  rw [blockMsd_var h A N hτ]
  simp only [moveOver_var h hs, card_blockSet]
  rw [Finset.sum_const, blockIdx, Finset.card_product, Finset.card_product, Finset.card_range, Finset.card_range]
  have hN' : (N : ℝ) ≠ 0 := by exact_mod_cast hN.ne'
  have hM' : (M : ℝ) ≠ 0 := by exact_mod_cast hM.ne'
  simp only [nsmul_eq_mul]
  push_cast
  field_simp

/-! ## Windows that overlap -/

theorem cov_inter {ξ : ι → Ω → ℝ} (h : RandomWalk μ ξ) (S T : Finset ι) :
    cov[fun ω => moveOver ξ S ω ^ 2, fun ω => moveOver ξ T ω ^ 2; μ] = Var[fun ω => moveOver ξ (S ∩ T) ω ^ 2; μ] := by
  have hU := moveOver_memLp h (S ∩ T)
  have hC := moveOver_memLp h (T \ S)
  have hUC := mul_memLp hU hC
  have e : (fun ω => moveOver ξ T ω ^ 2) = (fun ω => moveOver ξ (S ∩ T) ω ^ 2) +
      ((fun ω => 2 * (moveOver ξ (S ∩ T) ω * moveOver ξ (T \ S) ω)) + fun ω => moveOver ξ (T \ S) ω ^ 2) := by
    funext ω
    have h1 := moveOver_union (ξ := ξ) (S := T) (T := S ∩ T) Finset.inter_subset_right ω
    have h2 : T \ (S ∩ T) = T \ S := by ext x; simp only [Finset.mem_sdiff, Finset.mem_inter]; tauto
    rw [h2] at h1
    simp only [Pi.add_apply, h1]; ring
  rw [e, covariance_add_right (sq_memLp h S) (sq_memLp h _) ((hUC.const_mul 2).add (sq_memLp h _)),
    covariance_add_right (sq_memLp h S) (hUC.const_mul 2) (sq_memLp h _), covariance_const_mul_right,
    cov_nested h Finset.inter_subset_left, cov_disjoint h Finset.disjoint_sdiff]
  have c : cov[fun ω => moveOver ξ S ω ^ 2, fun ω => moveOver ξ (S ∩ T) ω * moveOver ξ (T \ S) ω; μ] = 0 := by
    rw [covariance_eq_sub (sq_memLp h S) hUC]
    have hi := h.indep.indepFun_finset S (T \ S) Finset.disjoint_sdiff h.meas
    have hm : Measurable fun f : S → ℝ => (∑ i, f i) ^ 2 * ∑ i : S, if (i : ι) ∈ T then f i else 0 := by
      refine Measurable.mul ?_ ?_
      · exact (Finset.measurable_fun_sum _ fun i _ => measurable_pi_apply i).pow_const 2
      · refine Finset.measurable_fun_sum _ fun i _ => ?_
        by_cases hi : (i : ι) ∈ T
        · simp only [hi, if_true]; exact measurable_pi_apply i
        · simp only [hi, if_false]; exact measurable_const
    have hm2 : Measurable fun f : (T \ S : Finset ι) → ℝ => ∑ i, f i := Finset.measurable_fun_sum _ fun i _ => measurable_pi_apply i
    have hX : Measurable fun ω => fun i : S => ξ i ω := measurable_pi_lambda _ fun i => h.meas i
    have hY : Measurable fun ω => fun i : (T \ S : Finset ι) => ξ i ω := measurable_pi_lambda _ fun i => h.meas i
    have key := hi.integral_fun_comp_mul_comp (f := fun f : S → ℝ => (∑ i, f i) ^ 2 * ∑ i : S, if (i : ι) ∈ T then f i else 0)
      (g := fun f : (T \ S : Finset ι) → ℝ => ∑ i, f i) hX.aemeasurable hY.aemeasurable hm.aestronglyMeasurable hm2.aestronglyMeasurable
    have sS : ∀ ω, ∑ i : S, ξ i ω = moveOver ξ S ω := fun ω => Finset.sum_coe_sort S fun i => ξ i ω
    have sD : ∀ ω, ∑ i : (T \ S : Finset ι), ξ i ω = moveOver ξ (T \ S) ω := fun ω => Finset.sum_coe_sort (T \ S) fun i => ξ i ω
    have sU : ∀ ω, (∑ i : S, if (i : ι) ∈ T then ξ i ω else 0) = moveOver ξ (S ∩ T) ω := fun ω => by
      rw [Finset.sum_coe_sort S fun i => if i ∈ T then ξ i ω else 0, ← Finset.sum_filter, Finset.filter_mem_eq_inter]
      rfl
    simp only [sS, sD, sU, moveOver_mean h, mul_zero] at key
    have i1 : ∫ ω, ((fun ω => moveOver ξ S ω ^ 2) * fun ω => moveOver ξ (S ∩ T) ω * moveOver ξ (T \ S) ω) ω ∂μ = 0 := by
      rw [← key]; congr 1; funext ω; simp only [Pi.mul_apply]; ring
    have hd : Disjoint (S ∩ T) (T \ S) := by
      rw [Finset.disjoint_left]; intro x hx hy
      exact (Finset.mem_sdiff.mp hy).2 (Finset.mem_inter.mp hx).1
    have i2 : ∫ ω, moveOver ξ (S ∩ T) ω * moveOver ξ (T \ S) ω ∂μ = 0 := by
      have := (moveOver_indep h hd).integral_fun_comp_mul_comp (f := fun x : ℝ => x) (g := fun x : ℝ => x)
        (moveOver_measurable h _).aemeasurable (moveOver_measurable h _).aemeasurable (by fun_prop) (by fun_prop)
      rw [this, moveOver_mean h, zero_mul]
    rw [i1, i2, mul_zero, sub_zero]
  rw [c]; ring

/-! ## Normal steps -/

/-- Fourth moment of a normal distribution. -/
theorem gaussian_fourth (v : NNReal) : ∫ x, x ^ 4 ∂gaussianReal 0 v = 3 * (v : ℝ) ^ 2 := by
  have h : ∫ x, x ^ 4 ∂gaussianReal 0 v = iteratedDeriv 4 (mgf (fun x ↦ x) (gaussianReal 0 v)) 0 := by
    rw [iteratedDeriv_mgf_zero] <;> simp
  rw [h, mgf_fun_id_gaussianReal]
  generalize (v : ℝ) = c
  have d : ∀ (p p' q : ℝ → ℝ), (∀ t, HasDerivAt p (p' t) t) → (∀ t, p' t + p t * (c * t) = q t) →
      deriv (fun t : ℝ => p t * Real.exp (0 * t + c * t ^ 2 / 2)) = fun t => q t * Real.exp (0 * t + c * t ^ 2 / 2) := by
    intro p p' q hp hq
    funext t
    have h1 : HasDerivAt (fun t : ℝ => 0 * t + c * t ^ 2 / 2) (c * t) t := by
      have h2 := ((hasDerivAt_id t).const_mul (0 : ℝ)).add (((hasDerivAt_pow 2 t).const_mul c).div_const 2)
      refine h2.congr_deriv ?_
      simp only [Nat.cast_ofNat]; ring
    have h3 := (hp t).mul h1.exp
    rw [← hq t]
    exact h3.deriv.trans (by ring)
  have e0 : (fun t : ℝ => Real.exp (0 * t + c * t ^ 2 / 2)) = fun t : ℝ => (fun _ : ℝ => (1 : ℝ)) t * Real.exp (0 * t + c * t ^ 2 / 2) := by
    funext t; simp
  have s1 := d (fun _ => 1) (fun _ => 0) (fun t => c * t) (fun t => hasDerivAt_const t _) (fun t => by ring)
  have s2 := d (fun t => c * t) (fun _ => c) (fun t => c + c ^ 2 * t ^ 2)
    (fun t => by simpa using (hasDerivAt_id t).const_mul c) (fun t => by ring)
  have s3 := d (fun t => c + c ^ 2 * t ^ 2) (fun t => c ^ 2 * (2 * t)) (fun t => 3 * c ^ 2 * t + c ^ 3 * t ^ 3)
    (fun t => by simpa using ((hasDerivAt_pow 2 t).const_mul (c ^ 2)).const_add c) (fun t => by ring)
  have s4 := d (fun t => 3 * c ^ 2 * t + c ^ 3 * t ^ 3) (fun t => 3 * c ^ 2 + c ^ 3 * (3 * t ^ 2)) 
    (fun t => 3 * c ^ 2 + c ^ 3 * (3 * t ^ 2) + (3 * c ^ 2 * t + c ^ 3 * t ^ 3) * (c * t))
    (fun t => (((hasDerivAt_id t).const_mul (3 * c ^ 2)).add ((hasDerivAt_pow 3 t).const_mul (c ^ 3))).congr_deriv (by simp)) (fun t => by ring)
  rw [e0, iteratedDeriv_succ', s1, iteratedDeriv_succ', s2, iteratedDeriv_succ', s3, iteratedDeriv_succ', s4, iteratedDeriv_zero]
  simp

/-- Independent normal steps are a random walk with normal moments. -/
theorem gaussian_walk (v : NNReal) :
    RandomWalk (Measure.infinitePi fun _ : ℕ × ℕ × Fin 3 => gaussianReal 0 v) (fun i ω => ω i) ∧
    NormalMoments (Measure.infinitePi fun _ : ℕ × ℕ × Fin 3 => gaussianReal 0 v) (fun i ω => ω i) (Real.sqrt v) := by
  have mp := fun i => measurePreserving_eval_infinitePi (fun _ : ℕ × ℕ × Fin 3 => gaussianReal 0 v) i
  have int : ∀ i (f : ℝ → ℝ), Measurable f → ∫ ω, f (ω i) ∂(Measure.infinitePi fun _ : ℕ × ℕ × Fin 3 => gaussianReal 0 v) =
      ∫ x, f x ∂gaussianReal 0 v := by
    intro i f hf
    have h := integral_map (μ := Measure.infinitePi fun _ : ℕ × ℕ × Fin 3 => gaussianReal 0 v) (mp i).measurable.aemeasurable
      (f := f) hf.aestronglyMeasurable
    rw [(mp i).map_eq] at h
    exact h.symm
  refine ⟨⟨iIndepFun_infinitePi (X := fun _ x => x) fun i => measurable_id, fun i => measurable_pi_apply i, fun i => ?_, fun i => ?_⟩, fun i => ?_, fun i => ?_⟩
  · exact (memLp_id_gaussianReal' 4 (by simp)).comp_measurePreserving (mp i)
  · rw [int i (fun x => x) measurable_id, integral_id_gaussianReal]
  · rw [int i (fun x => x ^ 2) (by fun_prop)]
    have := variance_fun_id_gaussianReal (μ := 0) (v := v)
    rw [variance_eq_integral measurable_id'.aemeasurable] at this
    simp only [integral_id_gaussianReal, sub_zero] at this
    rw [this, Real.sq_sqrt v.coe_nonneg]
  · rw [int i (fun x => x ^ 4) (by fun_prop), gaussian_fourth]
    have : (Real.sqrt v) ^ 4 = ((Real.sqrt v) ^ 2) ^ 2 := by ring
    rw [this, Real.sq_sqrt v.coe_nonneg]
end Kinisi
