import Verif.Model.Covariance
import Verif.Spec.Covariance
import Verif.Lemmas.Observables
import Mathlib.LinearAlgebra.Matrix.NonsingularInverse

/-!
# Lemmas for the covariance matrix
-/

set_option linter.unusedSectionVars false
set_option linter.unusedVariables false

namespace Kinisi
open Spec
variable {K : Type} [Field K] [LinearOrder K] [IsStrictOrderedRing K] [FloorRing K]

/-! ## Writing entries -/

/-- All rows of an `m × m` list of rows. -/
def Square {α : Type} (m : ℕ) (M : List (List α)) : Prop := M.length = m ∧ ∀ r ∈ M, r.length = m

theorem getElem?_length_of_square {α : Type} {m : ℕ} {M : List (List α)} (h : Square m M) {i : ℕ} (hi : i < m) :
    ∃ r, M[i]? = some r ∧ r.length = m := by
  have hi' : i < M.length := by rw [h.1]; exact hi
  exact ⟨M[i], List.getElem?_eq_getElem hi', h.2 _ (List.getElem_mem hi')⟩

theorem square_setEntry {α : Type} {m : ℕ} {M : List (List α)} (h : Square m M) (i j : ℕ) (x : α) : Square m (setEntry M i j x) := by
  refine ⟨by rw [setEntry, List.length_modify, h.1], ?_⟩
  intro r hr
  obtain ⟨k, hk, rfl⟩ := List.getElem_of_mem hr
  unfold setEntry at hk ⊢
  rw [List.getElem_modify]
  have hk' : k < M.length := by simpa using hk
  split
  · rw [List.length_set]; exact h.2 _ (List.getElem_mem hk')
  · exact h.2 _ (List.getElem_mem hk')

theorem getEntry_setEntry {α : Type} {m : ℕ} {M : List (List α)} (h : Square m M) {i j a b : ℕ} (ha : a < m) (hb : b < m) (x : α) :
    getEntry (setEntry M i j x) a b = if i = a ∧ j = b then some x else getEntry M a b := by
  obtain ⟨r, hr, hl⟩ := getElem?_length_of_square h ha
  unfold getEntry setEntry
  rw [List.getElem?_modify, hr]
  simp only [Option.map_eq_map, Option.map_some, Option.bind_some]
  by_cases hi : i = a
  · rw [if_pos hi, List.getElem?_set]
    by_cases hj : j = b
    · rw [if_pos hj, if_pos (by omega), if_pos ⟨hi, hj⟩]
    · rw [if_neg hj, if_neg (fun hh => hj hh.2)]
  · rw [if_neg hi, if_neg (fun hh => hi hh.1)]

/-! ## The loops -/

/-- Writing the values `val i j` symmetrically for the pairs in `P`. -/
def writeAll {α : Type} (val : ℕ → ℕ → α) (P : List (ℕ × ℕ)) (M : List (List α)) : List (List α) :=
  P.foldl (fun M p => setEntry (setEntry M p.1 p.2 (val p.1 p.2)) p.2 p.1 (val p.1 p.2)) M

theorem square_writeAll {α : Type} {m : ℕ} (val : ℕ → ℕ → α) (P : List (ℕ × ℕ)) {M : List (List α)} (h : Square m M) :
    Square m (writeAll val P M) := by
  induction P generalizing M with
  | nil => exact h
  | cons p P ih => exact ih (square_setEntry (square_setEntry h _ _ _) _ _ _)

theorem getEntry_writeAll {α : Type} {m : ℕ} (val : ℕ → ℕ → α) (P : List (ℕ × ℕ)) (hP : ∀ p ∈ P, p.1 ≤ p.2) {M : List (List α)}
    (h : Square m M) {a b : ℕ} (ha : a < m) (hb : b < m) :
    getEntry (writeAll val P M) a b =
      if (min a b, max a b) ∈ P then some (val (min a b) (max a b)) else getEntry M a b := by
  induction P generalizing M with
  | nil => simp [writeAll]
  | cons p P ih =>
    have hs := square_setEntry (square_setEntry h p.1 p.2 (val p.1 p.2)) p.2 p.1 (val p.1 p.2)
    have e : writeAll val (p :: P) M =
        writeAll val P (setEntry (setEntry M p.1 p.2 (val p.1 p.2)) p.2 p.1 (val p.1 p.2)) := rfl
    rw [e, ih (fun q hq => hP q (List.mem_cons_of_mem _ hq)) hs, getEntry_setEntry (square_setEntry h _ _ _) ha hb,
      getEntry_setEntry h ha hb]
    by_cases hm : (min a b, max a b) ∈ P
    · rw [if_pos hm, if_pos (List.mem_cons_of_mem _ hm)]
    · rw [if_neg hm]
      have hle := hP p List.mem_cons_self
      by_cases hp : (min a b, max a b) = p
      · subst hp
        rw [if_pos (show (min a b, max a b) ∈ (min a b, max a b) :: P from List.mem_cons_self)]
        dsimp only
        rcases le_total a b with hab | hab
        · rw [min_eq_left hab, max_eq_right hab]
          by_cases hba : b = a ∧ a = b
          · rw [if_pos hba]
          · rw [if_neg hba, if_pos ⟨rfl, rfl⟩]
        · rw [min_eq_right hab, max_eq_left hab, if_pos ⟨rfl, rfl⟩]
      · rw [if_neg (show ¬ (min a b, max a b) ∈ p :: P by rw [List.mem_cons]; exact fun hh => hh.elim hp hm)]
        obtain ⟨p1, p2⟩ := p
        dsimp only at hle ⊢
        rw [if_neg, if_neg]
        · rintro ⟨rfl, rfl⟩; exact hp (by rw [min_eq_left hle, max_eq_right hle])
        · rintro ⟨rfl, rfl⟩; exact hp (by rw [min_eq_right hle, max_eq_left hle])

/-- The value written at `(i, j)` with `i ≤ j`. -/
def covValue (v : List (Option K)) (n : List K) (i j : ℕ) : Option K :=
  npMul (npDiv (some (n.getD i 0)) (some (n.getD j 0))) (v.getD i none)

theorem covStep_ok {v : List (Option K)} {n : List K} (hl : v.length ≤ n.length) {i j : ℕ} (hi : i < v.length) (hj : j < v.length)
    (M : List (List (Option K))) :
    covStep v n i M j = .ok (setEntry (setEntry M i j (covValue v n i j)) j i (covValue v n i j)) := by
  unfold covStep
  rw [pyGet_ok (List.getElem?_eq_getElem (by omega : i < n.length)), pyGet_ok (List.getElem?_eq_getElem (by omega : j < n.length)),
    pyGet_ok (List.getElem?_eq_getElem hi)]
  simp only [bind, Except.bind, covValue]
  rw [List.getD_eq_getElem?_getD, List.getD_eq_getElem?_getD, List.getD_eq_getElem?_getD,
    List.getElem?_eq_getElem (by omega : i < n.length), List.getElem?_eq_getElem (by omega : j < n.length),
    List.getElem?_eq_getElem hi]
  rfl

theorem foldlM_ok {α β : Type} (f : β → α → PyM β) (g : β → α → β) (l : List α) (h : ∀ a ∈ l, ∀ b, f b a = .ok (g b a)) (b : β) :
    l.foldlM f b = .ok (l.foldl g b) := by
  induction l generalizing b with
  | nil => rfl
  | cons a l ih =>
    rw [List.foldlM_cons, h a List.mem_cons_self b]
    exact ih (fun a' ha' => h a' (List.mem_cons_of_mem _ ha')) _

theorem covRow_ok {v : List (Option K)} {n : List K} (hl : v.length ≤ n.length) {i : ℕ} (hi : i < v.length) (M : List (List (Option K))) :
    covRow v n M i = .ok (writeAll (covValue v n) ((List.range' i (v.length - i)).map fun j => (i, j)) M) := by
  unfold covRow writeAll
  rw [List.foldl_map]
  apply foldlM_ok (g := fun M j => setEntry (setEntry M i j (covValue v n i j)) j i (covValue v n i j))
  intro j hj M'
  rw [List.mem_range'_1] at hj
  exact covStep_ok hl hi (by omega) M'

/-- All pairs in the order of the two loops. -/
def allPairs (m : ℕ) : List (ℕ × ℕ) := (List.range m).flatMap fun i => (List.range' i (m - i)).map fun j => (i, j)

theorem mem_allPairs {m : ℕ} {p : ℕ × ℕ} : p ∈ allPairs m ↔ p.1 ≤ p.2 ∧ p.2 < m := by
  obtain ⟨a, b⟩ := p
  unfold allPairs
  simp only [List.mem_flatMap, List.mem_range, List.mem_map, List.mem_range'_1, Prod.mk.injEq]
  constructor
  · rintro ⟨i, hi, j, ⟨h1, h2⟩, rfl, rfl⟩; omega
  · rintro ⟨h1, h2⟩; exact ⟨a, by omega, b, by omega, rfl, rfl⟩

theorem foldl_writeAll {α : Type} (val : ℕ → ℕ → α) (f : ℕ → List (ℕ × ℕ)) (l : List ℕ) (M : List (List α)) :
    l.foldl (fun M i => writeAll val (f i) M) M = writeAll val (l.flatMap f) M := by
  induction l generalizing M with
  | nil => rfl
  | cons a l ih =>
    rw [List.foldl_cons, ih, List.flatMap_cons]
    unfold writeAll
    rw [List.foldl_append]

theorem populateCovariance_eq {v : List (Option K)} {n : List K} (hl : v.length ≤ n.length) :
    populateCovariance v n = .ok (writeAll (covValue v n) (allPairs v.length)
      (List.replicate v.length (List.replicate v.length (some 0)))) := by
  unfold populateCovariance
  rw [foldlM_ok (g := fun M i => writeAll (covValue v n) ((List.range' i (v.length - i)).map fun j => (i, j)) M)]
  · rw [foldl_writeAll]; rfl
  · intro i hi M
    exact covRow_ok hl (List.mem_range.mp hi) M

theorem square_replicate {α : Type} (m : ℕ) (x : α) : Square m (List.replicate m (List.replicate m x)) := by
  refine ⟨by simp, ?_⟩
  intro r hr
  rw [List.eq_of_mem_replicate hr]; simp

/-! ## Errors -/

theorem foldlM_error {α β : Type} (f : β → α → PyM β) (e : PyErr) (l : List α) (h : ∀ a ∈ l, ∀ b, (∃ b', f b a = .ok b') ∨ f b a = .error e)
    (a : α) (ha : a ∈ l) (hf : ∀ b, f b a = .error e) (b : β) : l.foldlM f b = .error e := by
  induction l generalizing b with
  | nil => cases ha
  | cons c l ih =>
    rw [List.foldlM_cons]
    rcases h c List.mem_cons_self b with ⟨b', hb⟩ | hb
    · rw [hb]
      rcases List.mem_cons.mp ha with rfl | ha
      · rw [hf b] at hb; cases hb
      · exact ih (fun a' ha' => h a' (List.mem_cons_of_mem _ ha')) ha b'
    · rw [hb]; rfl

theorem pyGet_none {α : Type} {l : List α} {i : ℕ} (h : l.length ≤ i) : pyGet l i = .error .indexError := by
  unfold pyGet; rw [List.getElem?_eq_none h]

theorem covStep_error {v : List (Option K)} {n : List K} {i j : ℕ} (M : List (List (Option K))) (h : n.length ≤ j) :
    covStep v n i M j = .error .indexError := by
  unfold covStep
  rw [pyGet_none h]
  unfold pyGet
  cases n[i]? <;> rfl

theorem covStep_error_kind {v : List (Option K)} {n : List K} {i j : ℕ} (M : List (List (Option K))) :
    (∃ M', covStep v n i M j = .ok M') ∨ covStep v n i M j = .error .indexError := by
  unfold covStep pyGet
  cases n[i]? <;> cases n[j]? <;> cases v[i]? <;> simp [bind, Except.bind]

theorem populateCovariance_short {v : List (Option K)} {n : List K} (hl : n.length < v.length) :
    populateCovariance v n = .error .indexError := by
  unfold populateCovariance
  have hrow : ∀ (i : ℕ) (M : List (List (Option K))), i = 0 → covRow v n M i = .error .indexError := by
    rintro i M rfl
    unfold covRow
    apply foldlM_error _ _ _ (fun a _ b => covStep_error_kind b) n.length
    · rw [List.mem_range'_1]; omega
    · intro b; exact covStep_error b (le_refl _)
  obtain ⟨k, hk⟩ : ∃ k, v.length = k + 1 := ⟨v.length - 1, by omega⟩
  rw [hk, List.range_succ_eq_map, List.foldlM_cons, hrow 0 _ rfl]
  rfl

/-! ## The quadratic form -/

/-- Increments of a sequence. -/
def incr (w : ℕ → K) : ℕ → K
  | 0 => w 0
  | k + 1 => w (k + 1) - w k

theorem sum_incr (w : ℕ → K) (k : ℕ) : ∑ i ∈ Finset.range (k + 1), incr w i = w k := by
  induction k with
  | zero => simp [incr]
  | succ k ih => rw [Finset.sum_range_succ, ih]; simp [incr]

/-- Sum of `y` from position `k` on. -/
def tailSum {m : ℕ} (y : Fin m → K) (k : ℕ) : K := ∑ i : Fin m, if k ≤ i.val then y i else 0

/-- Abel summation: the form with entries `w (min i j)` is a combination of squares with the increments of `w`. -/
theorem min_form {m : ℕ} (w : ℕ → K) (y : Fin m → K) :
    ∑ i : Fin m, ∑ j : Fin m, y i * w (min i.val j.val) * y j = ∑ k ∈ Finset.range m, incr w k * tailSum y k ^ 2 := by
  have h1 : ∀ i j : Fin m, w (min i.val j.val) =
      ∑ k ∈ Finset.range m, if k ≤ i.val ∧ k ≤ j.val then incr w k else 0 := by
    intro i j
    rw [← sum_incr w (min i.val j.val), ← Finset.sum_filter]
    apply Finset.sum_congr _ fun _ _ => rfl
    ext k
    simp only [Finset.mem_range, Finset.mem_filter]
    omega
  have h2 : ∀ k, incr w k * tailSum y k ^ 2 =
      ∑ i : Fin m, ∑ j : Fin m, y i * (if k ≤ i.val ∧ k ≤ j.val then incr w k else 0) * y j := by
    intro k
    unfold tailSum
    rw [sq, Finset.sum_mul_sum, Finset.mul_sum]
    apply Finset.sum_congr rfl
    intro i _
    rw [Finset.mul_sum]
    apply Finset.sum_congr rfl
    intro j _
    by_cases hi : k ≤ i.val <;> by_cases hj : k ≤ j.val <;> (simp [hi, hj]; try ring)
  symm
  rw [Finset.sum_congr rfl (fun k _ => h2 k), Finset.sum_comm]
  apply Finset.sum_congr rfl
  intro i _
  rw [Finset.sum_comm]
  apply Finset.sum_congr rfl
  intro j _
  rw [h1 i j, Finset.mul_sum, Finset.sum_mul]

theorem tailSum_succ {m : ℕ} (y : Fin m → K) (k : ℕ) (hk : k < m) : tailSum y k = y ⟨k, hk⟩ + tailSum y (k + 1) := by
  unfold tailSum
  have : ∀ i : Fin m, (if k ≤ i.val then y i else 0) = (if i = ⟨k, hk⟩ then y i else 0) + if k + 1 ≤ i.val then y i else 0 := by
    intro i
    by_cases h : i = ⟨k, hk⟩
    · subst h; simp
    · have : i.val ≠ k := fun hh => h (Fin.ext hh)
      by_cases h2 : k ≤ i.val
      · rw [if_pos h2, if_neg h, if_pos (by omega)]; ring
      · rw [if_neg h2, if_neg h, if_neg (by omega)]; ring
  rw [Finset.sum_congr rfl (fun i _ => this i), Finset.sum_add_distrib, Finset.sum_ite_eq']
  simp

theorem eq_zero_of_tailSums {m : ℕ} (y : Fin m → K) (h : ∀ k < m, tailSum y k = 0) : y = 0 := by
  funext i
  have h1 := tailSum_succ y i.val i.isLt
  have h2 : tailSum y (i.val + 1) = 0 := by
    by_cases hk : i.val + 1 < m
    · exact h _ hk
    · unfold tailSum
      apply Finset.sum_eq_zero
      intro j _
      rw [if_neg (by omega)]
  rw [h _ i.isLt, h2] at h1
  simpa using h1.symm

end Kinisi
