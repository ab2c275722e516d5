import Verif.Props.Analyzer

/-!
# C53: what is in a pool of trajectories of different sizes
-/

set_option linter.unusedSectionVars false
set_option linter.unusedVariables false

namespace Kinisi
open Spec
variable {K : Type} [Field K] [LinearOrder K] [IsStrictOrderedRing K] [FloorRing K]

/-- The `j`-th result of a map comes from the `j`-th element. -/
theorem mapM_nth {α β : Type} {f : α → PyM β} {l : List α} {r : List β} (h : l.mapM f = .ok r) :
    r.length = l.length ∧ ∀ (j : ℕ) (a : α), l[j]? = some a → ∃ v, r[j]? = some v ∧ f a = .ok v := by
  induction l generalizing r with
  | nil =>
    cases h
    exact ⟨rfl, fun j a hj => by simp at hj⟩
  | cons x l ih =>
    rw [List.mapM_cons] at h
    simp only [bind, Except.bind] at h
    cases hx : f x with
    | error e => rw [hx] at h; cases h
    | ok v =>
      rw [hx] at h
      simp only at h
      cases hl : l.mapM f with
      | error e => rw [hl] at h; cases h
      | ok vs =>
        rw [hl] at h
        cases h
        obtain ⟨h1, h2⟩ := ih hl
        refine ⟨by simp [h1], fun j a hj => ?_⟩
        cases j with
        | zero =>
          simp only [List.getElem?_cons_zero, Option.some.injEq] at hj
          subst hj
          exact ⟨v, rfl, hx⟩
        | succ j =>
          simp only [List.getElem?_cons_succ] at hj ⊢
          exact h2 j a hj

/-- **C53 (what is pooled).** Whenever trajectories are pooled, the block of every trajectory in the pooled array is the displacements of
that trajectory; where it has a single atom (or a single observation) while the first trajectory has more, that one is repeated. -/
theorem C53_content_partial (u0 : Parsed K) (others : List (Parsed K)) (A : Base K) (h : poolIdentical (u0 :: others) = .ok A) (i : ℕ) (a0 : Arr3 K)
    (h0 : u0.disp3d[i]? = some a0) :
    ∃ p, A.disp3d[i]? = some p ∧ p.n0 = a0.n0 * (others.length + 1) ∧ p.n1 = a0.n1 ∧
      ∀ (j : ℕ) (u : Parsed K), (u0 :: others)[j]? = some u → ∃ a, u.disp3d[i]? = some a ∧ ∀ r < a0.n0, ∀ k < a0.n1,
        p.get (j * a0.n0 + r) k = a.get (if a.n0 = 1 then 0 else r) (if a.n1 = 1 then 0 else k) := by
  simp only [poolIdentical, bind, Except.bind] at h
  cases hn : (u0 :: others).foldlM (fun acc u => addNO acc u.nO) (List.replicate u0.nO.length 0) with
  | error e => rw [hn] at h; cases h
  | ok nO =>
    rw [hn] at h
    simp only at h
    cases hs : stackTrajectories u0 others with
    | error e => rw [hs] at h; cases h
    | ok disp =>
      rw [hs] at h
      cases h
      obtain ⟨-, hnth⟩ := mapM_nth hs
      obtain ⟨p, hp, hone⟩ := hnth i (a0, i) (by simp [List.getElem?_zipIdx, h0])
      refine ⟨p, hp, ?_⟩
      change (others.mapM fun u => (pyGet u.disp3d i).bind (assignSlot a0.n0 a0.n1)).bind (fun blocks => .ok (joinBlocks a0.n0 a0.n1 (a0 :: blocks))) = .ok p at hone
      cases hb : others.mapM fun u => (pyGet u.disp3d i).bind (assignSlot a0.n0 a0.n1) with
      | error e => rw [hb] at hone; cases hone
      | ok blocks =>
        rw [hb] at hone
        cases hone
        obtain ⟨hl, hbl⟩ := mapM_nth hb
        refine ⟨by simp [joinBlocks, hl], rfl, fun j u hj => ?_⟩
        have hblk : ∃ a B, u.disp3d[i]? = some a ∧ (a0 :: blocks)[j]? = some B ∧ ∀ r < a0.n0, ∀ k < a0.n1,
            B.get r k = a.get (if a.n0 = 1 then 0 else r) (if a.n1 = 1 then 0 else k) := by
          cases j with
          | zero =>
            simp only [List.getElem?_cons_zero, Option.some.injEq] at hj
            subst hj
            refine ⟨a0, a0, h0, rfl, fun r hr k hk => ?_⟩
            congr 1
            · split_ifs <;> omega
            · split_ifs <;> omega
          | succ j =>
            simp only [List.getElem?_cons_succ] at hj ⊢
            obtain ⟨B, hB, hv⟩ := hbl j u hj
            unfold pyGet Except.bind at hv
            cases ha : u.disp3d[i]? with
            | none => rw [ha] at hv; cases hv
            | some a =>
              rw [ha] at hv
              simp only [assignSlot] at hv
              by_cases hc : (a.n0 = a0.n0 ∨ a.n0 = 1) ∧ (a.n1 = a0.n1 ∨ a.n1 = 1)
              swap
              · rw [if_neg hc] at hv; cases hv
              rw [if_pos hc] at hv
              cases hv
              refine ⟨a, _, rfl, hB, fun r hr k hk => ?_⟩
              simp only
              obtain ⟨hc0, hc1⟩ := hc
              congr 1
              · split_ifs <;> omega
              · split_ifs <;> omega
        obtain ⟨a, B, ha, hB, hget⟩ := hblk
        refine ⟨a, ha, fun r hr k hk => ?_⟩
        have e1 : (j * a0.n0 + r) / a0.n0 = j := by
          rw [Nat.mul_comm, Nat.mul_add_div (by omega), Nat.div_eq_of_lt hr, Nat.add_zero]
        have e2 : (j * a0.n0 + r) % a0.n0 = r := by
          rw [Nat.mul_comm, Nat.mul_add_mod, Nat.mod_eq_of_lt hr]
        simp only [joinBlocks, e1, e2, hB]
        exact hget r hr k hk

/-- `C53_violated` is an instance: two atoms, and then one atom twice. -/
example : ∃ u0 u1 A, aseParser exNum exShort exSelect 1 exTraj = .ok u0 ∧ aseParser exNum exShort exSelect 1 oneLi = .ok u1 ∧
    poolIdentical [u0, u1] = .ok A ∧ u0.disp3d.length = 2 := by
  obtain ⟨u0, h0⟩ := ok_of_isSome (x := aseParser exNum exShort exSelect 1 exTraj) (by decide +kernel)
  obtain ⟨u1, h1⟩ := ok_of_isSome (x := aseParser exNum exShort exSelect 1 oneLi) (by decide +kernel)
  have hA : ∃ A, (do let a ← aseParser exNum exShort exSelect 1 exTraj; let b ← aseParser exNum exShort exSelect 1 oneLi; poolIdentical [a, b]) = .ok A :=
    ok_of_isSome (by decide +kernel)
  obtain ⟨A, hA⟩ := hA
  rw [h0, h1] at hA
  have hl : ((aseParser exNum exShort exSelect 1 exTraj).toOption.map fun u => u.disp3d.length) = some 2 := by decide +kernel
  rw [h0] at hl
  exact ⟨u0, u1, A, h0, h1, hA, by simpa [Except.toOption] using hl⟩

end Kinisi
