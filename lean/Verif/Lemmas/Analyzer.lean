import Verif.Model.Analyzer
import Mathlib.Algebra.BigOperators.Field
import Verif.Lemmas.Observables
import Verif.Spec.Analyzer

/-!
# Lemmas about pooling trajectories
-/

set_option linter.unusedSectionVars false
set_option linter.unusedVariables false

namespace Kinisi
open Spec
variable {K : Type} [Field K] [LinearOrder K] [IsStrictOrderedRing K] [FloorRing K]

theorem mapM_ok_inv {α β : Type} {f : α → PyM β} : ∀ {l : List α} {r : List β}, l.mapM f = .ok r →
    r.length = l.length ∧ ∀ (i : ℕ) (x : α), l[i]? = some x → ∃ y, f x = .ok y ∧ r[i]? = some y := by
  intro l
  induction l with
  | nil => intro r h; obtain rfl := Except.ok.inj h; exact ⟨rfl, by simp⟩
  | cons x l ih =>
    intro r h
    rw [List.mapM_cons] at h
    cases hx : f x with
    | error e => rw [hx] at h; cases h
    | ok y =>
    rw [hx] at h
    cases hl : l.mapM f with
    | error e => rw [hl] at h; cases h
    | ok ys =>
    rw [hl] at h
    obtain rfl := Except.ok.inj h
    obtain ⟨h1, h2⟩ := ih hl
    refine ⟨by simp [h1], ?_⟩
    intro i x' hi
    cases i with
    | zero => simp at hi; subst hi; exact ⟨y, hx, rfl⟩
    | succ i => simpa using h2 i x' (by simpa using hi)

theorem mapM_ok_of {α β : Type} {f : α → PyM β} : ∀ {l : List α}, (∀ x ∈ l, ∃ y, f x = .ok y) → ∃ r, l.mapM f = .ok r := by
  intro l
  induction l with
  | nil => intro _; exact ⟨[], rfl⟩
  | cons x l ih =>
    intro h
    obtain ⟨y, hy⟩ := h x (by simp)
    obtain ⟨ys, hys⟩ := ih fun z hz => h z (by simp [hz])
    exact ⟨y :: ys, by rw [List.mapM_cons, hy, hys]; rfl⟩

theorem assignSlot_same {n0 n1 : ℕ} {a : Arr3 K} (h0 : a.n0 = n0) (h1 : a.n1 = n1) : assignSlot n0 n1 a = .ok a := by
  subst h0 h1
  unfold assignSlot
  rw [if_pos ⟨Or.inl rfl, Or.inl rfl⟩]
  simp only [if_true]

theorem assignSlot_inv {n0 n1 : ℕ} {a b : Arr3 K} (h : assignSlot n0 n1 a = .ok b) :
    (a.n0 = n0 ∨ a.n0 = 1) ∧ (a.n1 = n1 ∨ a.n1 = 1) := by
  unfold assignSlot at h
  by_cases hc : (a.n0 = n0 ∨ a.n0 = 1) ∧ (a.n1 = n1 ∨ a.n1 = 1)
  · exact hc
  · rw [if_neg hc] at h; cases h

theorem joinBlocks_get {n0 n1 : ℕ} {blocks : List (Arr3 K)} {j r : ℕ} {b : Arr3 K} (hj : blocks[j]? = some b) (hr : r < n0) (k : ℕ) :
    (joinBlocks n0 n1 blocks).get (j * n0 + r) k = b.get r k := by
  have h1 : (j * n0 + r) / n0 = j := by
    rw [mul_comm, Nat.mul_add_div (by omega), Nat.div_eq_of_lt hr, add_zero]
  have h2 : (j * n0 + r) % n0 = r := by
    rw [mul_comm, Nat.mul_add_mod, Nat.mod_eq_of_lt hr]
  simp only [joinBlocks, h1, h2, hj]

theorem stackOne_ok {a0 : Arr3 K} {others : List (Parsed K)} {i : ℕ}
    (h : ∀ u ∈ others, ∃ a, u.disp3d[i]? = some a ∧ a.n0 = a0.n0 ∧ a.n1 = a0.n1) :
    ∃ blocks, stackOne a0 others i = .ok (joinBlocks a0.n0 a0.n1 (a0 :: blocks)) ∧ blocks.length = others.length ∧
      ∀ (j : ℕ) (u : Parsed K) (a : Arr3 K), others[j]? = some u → u.disp3d[i]? = some a → blocks[j]? = some a := by
  obtain ⟨blocks, hb⟩ := mapM_ok_of (f := fun u : Parsed K => do
    let a ← pyGet u.disp3d i
    assignSlot a0.n0 a0.n1 a) (l := others) (by
      intro u hu
      obtain ⟨a, h1, h2, h3⟩ := h u hu
      exact ⟨a, by rw [pyGet_ok h1]; exact assignSlot_same h2 h3⟩)
  obtain ⟨hl, hi⟩ := mapM_ok_inv hb
  refine ⟨blocks, by unfold stackOne; rw [hb]; rfl, hl, ?_⟩
  intro j u a hj ha
  obtain ⟨y, hy, hyj⟩ := hi j u hj
  obtain ⟨a', h1, h2, h3⟩ := h u (List.mem_of_getElem? hj)
  obtain rfl : a = a' := Option.some.inj (ha.symm.trans h1)
  rw [pyGet_ok ha] at hy
  obtain rfl : y = a := by
    have : assignSlot a0.n0 a0.n1 a = .ok y := hy
    rw [assignSlot_same h2 h3] at this
    exact (Except.ok.inj this).symm
  exact hyj

theorem stackOne_inv {a0 p : Arr3 K} {others : List (Parsed K)} {i : ℕ} (h : stackOne a0 others i = .ok p) :
    ∀ u ∈ others, ∃ a, u.disp3d[i]? = some a ∧ (a.n0 = a0.n0 ∨ a.n0 = 1) ∧ (a.n1 = a0.n1 ∨ a.n1 = 1) := by
  intro u hu
  unfold stackOne at h
  cases hb : others.mapM (fun u => do
    let a ← pyGet u.disp3d i
    assignSlot a0.n0 a0.n1 a) with
  | error e => rw [hb] at h; cases h
  | ok blocks =>
    obtain ⟨j, hj⟩ := List.mem_iff_getElem?.mp hu
    obtain ⟨y, hy, -⟩ := (mapM_ok_inv hb).2 j u hj
    cases ha : pyGet u.disp3d i with
    | error e => rw [ha] at hy; cases hy
    | ok a =>
      rw [ha] at hy
      have : assignSlot a0.n0 a0.n1 a = .ok y := hy
      exact ⟨a, pyGet_inv ha, assignSlot_inv this⟩

theorem addNO_same {acc l : List K} (h : l.length = acc.length) : addNO acc l = .ok (List.zipWith (· + ·) acc l) := by
  unfold addNO; rw [if_pos h]

theorem foldNO {m : ℕ} : ∀ (us : List (Parsed K)) (acc : List K), acc.length = m → (∀ u ∈ us, u.nO.length = m) →
    ∃ r, us.foldlM (fun acc u => addNO acc u.nO) acc = .ok r ∧ r.length = m ∧
      ∀ i < m, r.getD i 0 = acc.getD i 0 + (us.map fun u => u.nO.getD i 0).sum := by
  intro us
  induction us with
  | nil => intro acc ha _; exact ⟨acc, rfl, ha, by simp⟩
  | cons u us ih =>
    intro acc ha hu
    have h1 : u.nO.length = acc.length := by rw [ha]; exact hu u (by simp)
    obtain ⟨r, hr, hl, hg⟩ := ih (List.zipWith (· + ·) acc u.nO) (by rw [List.length_zipWith, h1, ha, min_self])
      fun v hv => hu v (by simp [hv])
    refine ⟨r, ?_, hl, ?_⟩
    · rw [List.foldlM_cons, addNO_same h1]; exact hr
    · intro i hi
      rw [hg i hi, List.map_cons, List.sum_cons, ← add_assoc]
      congr 1
      have e1 : i < acc.length := by omega
      have e2 : i < u.nO.length := by omega
      simp [List.getD_eq_getElem?_getD, List.getElem?_zipWith, List.getElem?_eq_getElem e1, List.getElem?_eq_getElem e2]

theorem sum_blocks {M : Type} [AddCommMonoid M] (N : ℕ) (f : ℕ → M) (k : ℕ) :
    ∑ i ∈ Finset.range (k * N), f i = ∑ j ∈ Finset.range k, ∑ r ∈ Finset.range N, f (j * N + r) := by
  induction k with
  | zero => simp
  | succ k ih => rw [Nat.succ_mul, Finset.sum_range_add, ih, Finset.sum_range_succ]

theorem pyStride_index {α : Type} {sub : ℤ} {l ds : List α} (h : pyStride sub l = .ok ds) :
    ∃ idx : List ℕ, pyStride sub (List.range l.length) = .ok idx ∧ ∀ i : ℕ, ds[i]? = idx[i]?.bind fun j => l[j]? := by
  have hl : l.map some = (List.range l.length).map fun j => l[j]? := by
    apply List.ext_getElem?
    intro i
    rw [List.getElem?_map, List.getElem?_map]
    by_cases hi : i < l.length
    · rw [List.getElem?_range hi, List.getElem?_eq_getElem hi]; simp [List.getElem?_eq_getElem hi]
    · rw [List.getElem?_eq_none (by omega), List.getElem?_eq_none (by simpa using hi)]; rfl
  have h2 : pyStride sub (l.map some) = .ok (ds.map some) := by rw [pyStride_map, h]; rfl
  rw [hl, pyStride_map] at h2
  cases hi : pyStride sub (List.range l.length) with
  | error e => rw [hi] at h2; cases h2
  | ok idx =>
    rw [hi] at h2
    have h3 := Except.ok.inj h2
    refine ⟨idx, rfl, fun i => ?_⟩
    have h4 := congrArg (fun m => m[i]?) h3
    simp only [List.getElem?_map] at h4
    cases hd : ds[i]? with
    | none => rw [hd] at h4; cases hx : idx[i]? with
      | none => rfl
      | some j => rw [hx] at h4; cases h4
    | some d => rw [hd] at h4; cases hx : idx[i]? with
      | none => rw [hx] at h4; cases h4
      | some j => rw [hx] at h4; simpa using (Option.some.inj h4).symm

end Kinisi
