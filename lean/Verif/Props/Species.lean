import Verif.Spec.Species
import Verif.Props.Supercell

/-!
# C122: analysing several species together
-/

set_option linter.unusedSectionVars false
set_option linter.unusedVariables false

namespace Kinisi
open Spec
variable {K : Type} [Field K] [LinearOrder K] [IsStrictOrderedRing K] [FloorRing K] {G : Type}

/-! ## Lists -/

theorem sum_range_getD (l : List ℕ) (f : ℕ → K) : ∑ r ∈ Finset.range l.length, f (l.getD r 0) = (l.map f).sum := by
  induction l using List.reverseRecOn with
  | nil => simp
  | append_singleton l a ih =>
    rw [List.length_append, List.length_singleton, Finset.sum_range_succ, List.map_append, List.sum_append, ← ih]
    congr 1
    · refine Finset.sum_congr rfl fun r hr => ?_
      rw [List.getD_eq_getElem?_getD, List.getElem?_append_left (Finset.mem_range.mp hr), ← List.getD_eq_getElem?_getD]
    · simp [List.getD_eq_getElem?_getD]

theorem filter_or_perm {α : Type} (p q : α → Bool) (l : List α) (h : ∀ a ∈ l, p a = true → q a = false) :
    (l.filter fun a => p a || q a).Perm (l.filter p ++ l.filter q) := by
  induction l with
  | nil => simp
  | cons a l ih =>
    have ih := ih fun b hb => h b (by simp [hb])
    have ha := h a (by simp)
    cases hp : p a with
    | true =>
      have hq := ha hp
      simp only [List.filter_cons, hp, hq, Bool.true_or, if_true, Bool.false_eq_true, if_false, List.cons_append]
      exact ih.cons a
    | false =>
      cases hq : q a with
      | true =>
        simp only [List.filter_cons, hp, hq, Bool.or_true, if_true, Bool.false_eq_true, if_false]
        exact (ih.cons a).trans List.perm_middle.symm
      | false =>
        simp only [List.filter_cons, hp, hq, Bool.or_false, Bool.false_eq_true, if_false]
        exact ih

theorem chosen_append (sy A B : List String) (hd : ∀ s ∈ A, s ∉ B) : (chosen sy (A ++ B)).Perm (chosen sy A ++ chosen sy B) := by
  unfold chosen
  have := filter_or_perm (fun k => A.contains (sy.getD k "")) (fun k => B.contains (sy.getD k "")) (List.range sy.length) fun k _ hk => by
    simpa using hd _ (by simpa using hk)
  refine (List.Perm.of_eq ?_).trans this
  apply List.filter_congr
  intro k _
  simp

theorem mapM_nat_ok {n : ℕ} {atoms rows : List ℕ} (h : (atoms.map fun k : ℕ => (k : ℤ)).mapM (npIdx n) = .ok rows) : rows = atoms := by
  by_cases ha : ∀ k ∈ atoms, k < n
  · rw [mapM_natIdx ha] at h
    exact (Except.ok.inj h).symm
  · exfalso
    apply ha
    clear ha
    induction atoms generalizing rows with
    | nil => simp
    | cons a l ih =>
      rw [List.map_cons, List.mapM_cons] at h
      cases e : npIdx n (a : ℤ) with
      | error x => rw [e] at h; cases h
      | ok i =>
        rw [e] at h
        cases e2 : (l.map fun k : ℕ => (k : ℤ)).mapM (npIdx n) with
        | error x => simp only [bind, Except.bind, e2] at h; cases h
        | ok r =>
          intro k hk
          rcases List.mem_cons.mp hk with rfl | hk
          · unfold npIdx at e
            split_ifs at e <;> omega
          · exact ih e2 k hk

/-! ## Rows -/

/-- The array holds the vectors `v atom k`, one row per atom. -/
structure HasRows (v : ℕ → ℕ → V3 K) (m : ℕ) (atoms : List ℕ) (a : Arr3 K) : Prop where
  n0 : a.n0 = atoms.length
  n1 : a.n1 = m
  get : ∀ r < atoms.length, ∀ k < m, a.get r k = v (atoms.getD r 0) k

theorem rows_sum {v : ℕ → ℕ → V3 K} {m : ℕ} {atoms : List ℕ} {a : Arr3 K} (h : HasRows v m atoms a) (φ : V3 K → K) :
    ∑ p ∈ pairs a, φ (a.get p.1 p.2) = (atoms.map fun i => ∑ k ∈ Finset.range m, φ (v i k)).sum := by
  rw [← sum_range_getD]
  unfold pairs
  rw [Finset.sum_product, h.n0, h.n1]
  refine Finset.sum_congr rfl fun r hr => Finset.sum_congr rfl fun k hk => ?_
  rw [h.get r (Finset.mem_range.mp hr) k (Finset.mem_range.mp hk)]

theorem rows_card {v : ℕ → ℕ → V3 K} {m : ℕ} {atoms : List ℕ} {a : Arr3 K} (h : HasRows v m atoms a) : (pairs a).card = atoms.length * m := by
  simp [pairs, h.n0, h.n1]

theorem msd_rows {v : ℕ → ℕ → V3 K} {m : ℕ} (hm : 0 < m) {atoms : List ℕ} (ha : 0 < atoms.length) {a : Arr3 K} (h : HasRows v m atoms a) (A : Finset (Fin 3)) :
    (atoms.length : K) * msd A a = (atoms.map fun i => (∑ k ∈ Finset.range m, ∑ x ∈ A, v i k x ^ 2) / m).sum := by
  have hm' : (m : K) ≠ 0 := by exact_mod_cast hm.ne'
  have ha' : (atoms.length : K) ≠ 0 := by exact_mod_cast ha.ne'
  rw [msd_mean]
  unfold meanOn
  rw [rows_sum h fun u => ∑ x ∈ A, u x ^ 2, rows_card h]
  have e : (atoms.map fun i => (∑ k ∈ Finset.range m, ∑ x ∈ A, v i k x ^ 2) / (m : K)).sum =
      (atoms.map fun i => ∑ k ∈ Finset.range m, ∑ x ∈ A, v i k x ^ 2).sum / m := by
    clear h ha ha'
    induction atoms with
    | nil => simp
    | cons i l ih =>
      rw [List.map_cons, List.sum_cons, List.map_cons, List.sum_cons, ih, add_div]
  rw [e]
  push_cast
  field_simp

/-- Number of windows of a lag. -/
def winLen (sampling : String) (n1 : ℕ) (p : ℤ × ℕ) : ℕ :=
  if sampling = "single-origin" then sliceBound n1 ((p.2 : ℤ) + 1) - sliceBound n1 p.2 else 1 + sliceBound n1 (-p.1)

/-- Displacement of an atom over a window of a lag. -/
def winVal (sampling : String) (dc : Arr3 K) (p : ℤ × ℕ) : ℕ → ℕ → V3 K :=
  if sampling = "single-origin" then fun i k => dc.get i (p.2 + k)
  else match npIdx dc.n1 (p.1 - 1) with
    | .ok first => fun i k => if k = 0 then dc.get i first else fun l => dc.get i (sliceBound dc.n1 p.1 + (k - 1)) l - dc.get i (k - 1) l
    | .error _ => fun _ _ _ => 0

theorem interval_rows {fl : K → K} {dc : Arr3 K} {atoms : List ℕ} {sampling : String} {last : ℤ} {p : ℤ × ℕ} {x : Option (Arr3 K × K)}
    (h : oneInterval fl (atoms.map fun k : ℕ => (k : ℤ)) sampling last dc p = .ok x) (h2 : 2 ≤ atoms.length) :
    p.1 ≠ 0 ∧ (strideCount (winLen sampling dc.n1 p) p.1 = 0 ∧ x = none ∨ 0 < strideCount (winLen sampling dc.n1 p) p.1 ∧
      ∃ a, x = some (a, fl ((((atoms.length : ℤ) * last : ℤ) : K) / (p.1 : K))) ∧ HasRows (winVal sampling dc p) (winLen sampling dc.n1 p) atoms a) := by
  unfold oneInterval at h
  cases e : (atoms.map fun k : ℕ => (k : ℤ)).mapM (npIdx dc.n0) with
  | error y => rw [e] at h; cases h
  | ok rows =>
  obtain rfl := mapM_nat_ok e
  rw [e] at h
  simp only [bind, Except.bind] at h
  have fin : ∀ d : Arr3 K, HasRows (winVal sampling dc p) (winLen sampling dc.n1 p) rows d →
      (if p.1 = 0 then (.error .valueError : PyM (Option (Arr3 K × K))) else if d.n0 * strideCount d.n1 p.1 ≤ 1 then .ok none
        else .ok (some (d, fl ((((d.n0 : ℤ) * last : ℤ) : K) / (p.1 : K))))) = .ok x → p.1 ≠ 0 ∧
      (strideCount (winLen sampling dc.n1 p) p.1 = 0 ∧ x = none ∨ 0 < strideCount (winLen sampling dc.n1 p) p.1 ∧
      ∃ a, x = some (a, fl ((((rows.length : ℤ) * last : ℤ) : K) / (p.1 : K))) ∧ HasRows (winVal sampling dc p) (winLen sampling dc.n1 p) rows a) := by
    intro d hd hx
    rw [hd.n0, hd.n1] at hx
    by_cases hz : p.1 = 0
    · rw [if_pos hz] at hx; cases hx
    rw [if_neg hz] at hx
    refine ⟨hz, ?_⟩
    by_cases hs : strideCount (winLen sampling dc.n1 p) p.1 = 0
    · rw [hs, Nat.mul_zero, if_pos (by omega)] at hx
      exact .inl ⟨hs, (Except.ok.inj hx).symm⟩
    · have hs1 : 1 ≤ strideCount (winLen sampling dc.n1 p) p.1 := by omega
      have := Nat.mul_le_mul h2 hs1
      rw [if_neg (by omega)] at hx
      exact .inr ⟨hs1, d, (Except.ok.inj hx).symm, hd⟩
  by_cases c1 : sampling = "single-origin"
  · rw [if_pos c1] at h
    refine fin _ ?_ h
    unfold winVal winLen
    rw [if_pos c1, if_pos c1]
    exact ⟨rfl, rfl, fun r hr k hk => rfl⟩
  rw [if_neg c1] at h
  by_cases c2 : sampling = "multi-origin"
  swap
  · rw [if_neg c2] at h
    cases h
  rw [if_pos c2] at h
  cases hm : multiOrigin dc rows p.1 with
  | error e => rw [hm] at h; cases h
  | ok d =>
  rw [hm] at h
  refine fin d ?_ h
  unfold multiOrigin at hm
  unfold winVal winLen
  rw [if_neg c1, if_neg c1]
  cases hf : npIdx dc.n1 (p.1 - 1) with
  | error e => rw [hf] at hm; cases hm
  | ok first =>
  rw [hf] at hm
  simp only [bind, Except.bind] at hm
  split_ifs at hm with hne
  obtain rfl := Except.ok.inj hm
  exact ⟨rfl, rfl, fun r hr k hk => rfl⟩

/-! ## Three analyses -/

/-- The displacements of the atoms of `A`, of `B` and of both. -/
def Joined (A B C : List ℕ) (a b c : Arr3 K) : Prop := ∃ (v : ℕ → ℕ → V3 K) (m : ℕ), 0 < m ∧ HasRows v m A a ∧ HasRows v m B b ∧ HasRows v m C c

theorem msd_joined {A B C : List ℕ} (hA : 2 ≤ A.length) (hB : 2 ≤ B.length) (hC : C.Perm (A ++ B)) {a b c : Arr3 K} (h : Joined A B C a b c)
    (ax : Finset (Fin 3)) : msd ax c = (A.length * msd ax a + B.length * msd ax b) / (A.length + B.length) := by
  obtain ⟨v, m, hm, ha, hb, hc⟩ := h
  have hl : C.length = A.length + B.length := by rw [hC.length_eq, List.length_append]
  have hne : ((A.length : K) + B.length) ≠ 0 := by
    have : (2 : K) ≤ A.length := by exact_mod_cast hA
    have : (2 : K) ≤ B.length := by exact_mod_cast hB
    linarith
  rw [eq_div_iff hne, mul_comm, msd_rows hm (by omega) ha ax, msd_rows hm (by omega) hb ax, ← List.sum_append, ← List.map_append]
  have := msd_rows hm (by omega) hc ax
  rw [hl] at this
  push_cast at this
  rw [this]
  exact (hC.map _).sum_eq

/-- The entries of three lists are related one by one. -/
inductive Forall₃ {α β γ : Type} (T : α → β → γ → Prop) : List α → List β → List γ → Prop
  | nil : Forall₃ T [] [] []
  | cons {a b c l m n} (h : T a b c) (t : Forall₃ T l m n) : Forall₃ T (a :: l) (b :: m) (c :: n)

theorem mapM_three {α β γ δ : Type} {p : α → PyM β} {q : α → PyM γ} {s : α → PyM δ} {T : β → γ → δ → Prop}
    (h : ∀ a x y z, p a = .ok x → q a = .ok y → s a = .ok z → T x y z) :
    ∀ {l : List α} {xs : List β} {ys : List γ} {zs : List δ}, l.mapM p = .ok xs → l.mapM q = .ok ys → l.mapM s = .ok zs → Forall₃ T xs ys zs := by
  intro l
  induction l with
  | nil =>
    intro xs ys zs h1 h2 h3
    cases h1
    cases h2
    cases h3
    exact .nil
  | cons a l ih =>
    intro xs ys zs h1 h2 h3
    rw [List.mapM_cons] at h1 h2 h3
    have inv : ∀ {ε : Type} {p : α → PyM ε} {xs : List ε}, (p a >>= fun x => l.mapM p >>= fun r => pure (x :: r)) = .ok xs →
        ∃ x r, p a = .ok x ∧ l.mapM p = .ok r ∧ xs = x :: r := by
      intro ε p xs h
      cases e1 : p a with
      | error e => rw [e1] at h; cases h
      | ok x =>
      cases e2 : l.mapM p with
      | error e => simp only [e1, bind, Except.bind, e2] at h; cases h
      | ok r =>
      simp only [e1, bind, Except.bind, e2] at h
      exact ⟨x, r, rfl, rfl, (Except.ok.inj h).symm⟩
    obtain ⟨x, r, i1, i2, rfl⟩ := inv h1
    obtain ⟨x', r', j1, j2, rfl⟩ := inv h2
    obtain ⟨x'', r'', k1, k2, rfl⟩ := inv h3
    exact .cons (h a x x' x'' i1 j1 k1) (ih i2 j2 k2)

/-- What the analyzers get for `A`, for `B` and for both. -/
structure BaseJoined (fl : K → K) (A B C : List ℕ) (b₁ b₂ b₃ : Base K) : Prop where
  dt1 : b₁.deltaT = b₃.deltaT
  dt2 : b₂.deltaT = b₃.deltaT
  disp : Forall₃ (Joined A B C) b₁.disp3d b₂.disp3d b₃.disp3d
  nO : fl = id → Forall₃ (fun x y z : K => z = x + y) b₁.nO b₂.nO b₃.nO

theorem getDisps_mapM {fl : K → K} {giga : K} {itemsize : ℕ} {timeStep stepSkip : PyNum K} {idx : List ℤ} {sampling : String} {limit : K} {ti : List ℤ}
    {dc : Arr3 K} {o : DispsOut K} (h : getDisps fl giga itemsize timeStep stepSkip idx sampling limit ti dc = .ok o) :
    ∃ xs, ti.zipIdx.mapM (oneInterval fl idx sampling (ti.getLastD 0) dc) = .ok xs ∧
      o = ⟨ti.map fun τ => (deltaTOf fl timeStep stepSkip τ).val, (xs.filterMap id).map Prod.fst, (xs.filterMap id).map Prod.snd⟩ := by
  unfold getDisps at h
  simp only [bind, Except.bind] at h
  split at h
  · cases h
  split_ifs at h
  split at h
  · cases h
  rename_i xs hx
  exact ⟨xs, hx, (Except.ok.inj h).symm⟩

theorem parserInit_mapM {E : Num K} {P : Params K} {w : Bool} {disp : Arr3 K} {sel : Selection} {r : Parsed K} (h : parserInit E P w disp sel = .ok r) :
    ∃ dc ti xs, correctDriftSeq sel.drift disp = .ok dc ∧
      initTimeIntervals E.fl E.geo dc.n1 P.timeStep P.stepSkip P.minDt P.maxDt P.nSteps P.spacing = .ok ti ∧
      ti.zipIdx.mapM (oneInterval E.fl sel.indices P.sampling (ti.getLastD 0) dc) = .ok xs ∧
      r.deltaT = (ti.map fun τ => (deltaTOf E.fl P.timeStep P.stepSkip τ).val) ∧ r.disp3d = (xs.filterMap id).map Prod.fst ∧
      r.nO = (xs.filterMap id).map Prod.snd := by
  unfold parserInit at h
  simp only [bind, Except.bind] at h
  split at h
  · cases h
  rename_i dc hd
  split at h
  · cases h
  rename_i ti ht
  split at h
  · cases h
  rename_i o ho
  obtain ⟨xs, hx, rfl⟩ := getDisps_mapM ho
  obtain rfl := Except.ok.inj h
  exact ⟨dc, ti, xs, hd, ht, hx, rfl, rfl, rfl⟩

theorem init_joined {E : Num K} {P : Params K} {w : Bool} {disp : Arr3 K} {A B C : List ℕ} (hA : 2 ≤ A.length) (hB : 2 ≤ B.length) (hC : C.Perm (A ++ B))
    {f : PySeq} {r₁ r₂ r₃ : Parsed K} (h₁ : parserInit E P w disp ⟨A.map fun k : ℕ => (k : ℤ), f⟩ = .ok r₁)
    (h₂ : parserInit E P w disp ⟨B.map fun k : ℕ => (k : ℤ), f⟩ = .ok r₂) (h₃ : parserInit E P w disp ⟨C.map fun k : ℕ => (k : ℤ), f⟩ = .ok r₃) :
    BaseJoined E.fl A B C (baseOf r₁) (baseOf r₂) (baseOf r₃) := by
  have hl : C.length = A.length + B.length := by rw [hC.length_eq, List.length_append]
  obtain ⟨dc, ti, xs, a1, a2, a3, a4, a5, a6⟩ := parserInit_mapM h₁
  obtain ⟨dc', ti', ys, b1, b2, b3, b4, b5, b6⟩ := parserInit_mapM h₂
  obtain ⟨dc'', ti'', zs, c1, c2, c3, c4, c5, c6⟩ := parserInit_mapM h₃
  dsimp only at a1 b1 c1 a3 b3 c3
  rw [a1] at b1 c1
  cases b1
  cases c1
  rw [a2] at b2 c2
  cases b2
  cases c2
  have hx := mapM_three (T := fun x y z : Option (Arr3 K × K) => x = none ∧ y = none ∧ z = none ∨ ∃ a b c na nb nc, x = some (a, na) ∧ y = some (b, nb) ∧
      z = some (c, nc) ∧ Joined A B C a b c ∧ (E.fl = id → nc = na + nb)) (fun p x y z e1 e2 e3 => by
    obtain ⟨hz, g1⟩ := interval_rows e1 hA
    obtain ⟨-, g2⟩ := interval_rows e2 hB
    obtain ⟨-, g3⟩ := interval_rows e3 (by omega)
    rcases g1 with ⟨s1, rfl⟩ | ⟨s1, a, rfl, ha⟩
    · rcases g2 with ⟨-, rfl⟩ | ⟨s2, -⟩
      · rcases g3 with ⟨-, rfl⟩ | ⟨s3, -⟩
        · exact .inl ⟨rfl, rfl, rfl⟩
        · omega
      · omega
    · rcases g2 with ⟨s2, -⟩ | ⟨-, b, rfl, hb⟩
      · omega
      rcases g3 with ⟨s3, -⟩ | ⟨-, c, rfl, hc⟩
      · omega
      refine .inr ⟨a, b, c, _, _, _, rfl, rfl, rfl, ⟨_, _, ?_, ha, hb, hc⟩, fun hid => ?_⟩
      · by_contra hd0
        have hw : winLen P.sampling dc.n1 p = 0 := by omega
        rw [hw] at s1
        unfold strideCount at s1
        have := Int.natAbs_pos.mpr hz
        rw [Nat.div_eq_of_lt (by omega)] at s1
        omega
      · rw [hid, hl]
        simp only [id]
        push_cast
        ring) a3 b3 c3
  have key : Forall₃ (Joined A B C) ((xs.filterMap id).map Prod.fst) ((ys.filterMap id).map Prod.fst) ((zs.filterMap id).map Prod.fst) ∧
      (E.fl = id → Forall₃ (fun x y z : K => z = x + y) ((xs.filterMap id).map Prod.snd) ((ys.filterMap id).map Prod.snd) ((zs.filterMap id).map Prod.snd)) := by
    clear a3 b3 c3 a5 b5 c5 a6 b6 c6
    induction hx with
    | nil => exact ⟨.nil, fun _ => .nil⟩
    | cons h _ ih =>
      rcases h with ⟨rfl, rfl, rfl⟩ | ⟨a, b, c, na, nb, nc, rfl, rfl, rfl, hj, hn⟩
      · simpa using ih
      · simp only [List.filterMap_cons, id, List.map_cons]
        exact ⟨.cons hj ih.1, fun hid => .cons (hn hid) (ih.2 hid)⟩
  refine ⟨?_, ?_, ?_, ?_⟩
  · exact a4.trans c4.symm
  · exact b4.trans c4.symm
  · simp only [baseOf, a5, b5, c5]
    exact key.1
  · simp only [baseOf, a6, b6, c6]
    exact key.2

theorem build_joined {E : Num K} {P : Params K} {S : Select K} {f : PySeq} (hS : S.framework = some f) {A B : List String} (hd : ∀ s ∈ A, s ∉ B)
    {s : Frame K} {coords : List (List (V3 K))} {latt : List (M3 K)} (hA : 2 ≤ (chosen s.symbols A).length) (hB : 2 ≤ (chosen s.symbols B).length)
    {r₁ r₂ r₃ : Parsed K} (h₁ : buildParser E P (withSpecies S A) s coords latt = .ok r₁) (h₂ : buildParser E P (withSpecies S B) s coords latt = .ok r₂)
    (h₃ : buildParser E P (withSpecies S (A ++ B)) s coords latt = .ok r₃) :
    BaseJoined E.fl (chosen s.symbols A) (chosen s.symbols B) (chosen s.symbols (A ++ B)) (baseOf r₁) (baseOf r₂) (baseOf r₃) := by
  have inv : ∀ {sp : List String} {r : Parsed K}, buildParser E P (withSpecies S sp) s coords latt = .ok r →
      ∃ w d z, getDisp coords latt = .ok (w, d) ∧ parserInit E P w d ⟨(chosen s.symbols sp).map fun k : ℕ => (k : ℤ), f⟩ = .ok z ∧
        r.deltaT = z.deltaT ∧ r.disp3d = z.disp3d ∧ r.nO = z.nO := by
    intro sp r h
    unfold buildParser selectAtoms withSpecies getIndices at h
    simp only [hS, positions_eq, bind, Except.bind] at h
    split at h
    · cases h
    rename_i y hy
    split_ifs at hy
    cases hy
    dsimp only at h
    split at h
    · cases h
    rename_i wd hwd
    obtain ⟨w, d⟩ := wd
    dsimp only at h
    split at h
    · cases h
    rename_i z hz
    cases h
    exact ⟨w, d, z, hwd, hz, rfl, rfl, rfl⟩
  obtain ⟨w, d, z₁, e1, i1, p1, q1, n1⟩ := inv h₁
  obtain ⟨_, _, z₂, e2, i2, p2, q2, n2⟩ := inv h₂
  obtain ⟨_, _, z₃, e3, i3, p3, q3, n3⟩ := inv h₃
  rw [e1] at e2 e3
  cases e2
  cases e3
  obtain ⟨k1, k2, k3, k4⟩ := init_joined hA hB (chosen_append s.symbols A B hd) i1 i2 i3
  simp only [baseOf] at k1 k2 k3 k4
  refine ⟨?_, ?_, ?_, ?_⟩ <;> simp only [baseOf, p1, p2, p3, q1, q2, q3, n1, n2, n3] <;> assumption

theorem pymatgen_joined {E : Num K} {P : Params K} {S : Select K} {f : PySeq} (hS : S.framework = some f) {A B : List String} (hd : ∀ s ∈ A, s ∉ B)
    {sy : List String} (hA : 2 ≤ (chosen sy A).length) (hB : 2 ≤ (chosen sy B).length) {k : ℤ} {fr : List (Frame K)} (hf : ∀ f ∈ fr, f.symbols = sy)
    {r₁ r₂ r₃ : Parsed K} (h₁ : pymatgenParser E P (withSpecies S A) k fr = .ok r₁) (h₂ : pymatgenParser E P (withSpecies S B) k fr = .ok r₂)
    (h₃ : pymatgenParser E P (withSpecies S (A ++ B)) k fr = .ok r₃) :
    BaseJoined E.fl (chosen sy A) (chosen sy B) (chosen sy (A ++ B)) (baseOf r₁) (baseOf r₂) (baseOf r₃) := by
  unfold pymatgenParser at h₁ h₂ h₃
  cases e : pyStride k fr with
  | error x => rw [e] at h₁; cases h₁
  | ok fs =>
  rw [e] at h₁ h₂ h₃
  simp only [bind, Except.bind] at h₁ h₂ h₃
  cases fs with
  | nil => cases h₁
  | cons f0 rest =>
  simp only [structureCoordsLatt] at h₁ h₂ h₃
  have hsy := hf f0 (pyStride_mem e (by simp))
  split at h₁
  · cases h₁
  rename_i z₁ hz₁
  split at h₂
  · cases h₂
  rename_i z₂ hz₂
  split at h₃
  · cases h₃
  rename_i z₃ hz₃
  split_ifs at h₁ h₂ h₃
  cases h₁
  cases h₂
  cases h₃
  rw [← hsy] at hA hB ⊢
  obtain ⟨k1, k2, k3, k4⟩ := build_joined hS hd hA hB hz₁ hz₂ hz₃
  exact ⟨congrArg (List.map _) k1, congrArg (List.map _) k2, k3, k4⟩

theorem of_ite_error {α : Type} {c : Prop} [Decidable c] {e : PyErr} {x : PyM α} {z : α} (h : (if c then .error e else x) = .ok z) : x = .ok z := by
  split_ifs at h
  exact h

theorem reads_joined {E : Num K} {P : Params K} {S : Select K} {f : PySeq} (hS : S.framework = some f) {A B : List String} (hd : ∀ s ∈ A, s ∉ B)
    {sy : List String} (hA : 2 ≤ (chosen sy A).length) (hB : 2 ≤ (chosen sy B).length) {rd : Select K → PyM (Base K)} (hr : Reads E P sy rd)
    {b₁ b₂ b₃ : Base K} (h₁ : rd (withSpecies S A) = .ok b₁) (h₂ : rd (withSpecies S B) = .ok b₂) (h₃ : rd (withSpecies S (A ++ B)) = .ok b₃) :
    BaseJoined E.fl (chosen sy A) (chosen sy B) (chosen sy (A ++ B)) b₁ b₂ b₃ := by
  cases hr with
  | ase k fr hf =>
    simp only [fromAse, analyzerFrom, Traj.asOne, bind, Except.bind] at h₁ h₂ h₃
    split at h₁
    · cases h₁
    rename_i z₁ hz₁
    split at h₂
    · cases h₂
    rename_i z₂ hz₂
    split at h₃
    · cases h₃
    rename_i z₃ hz₃
    cases h₁
    cases h₂
    cases h₃
    unfold aseParser at hz₁ hz₂ hz₃
    cases e : pyStride k fr with
    | error x => rw [e] at hz₁; cases hz₁
    | ok fs =>
    rw [e] at hz₁ hz₂ hz₃
    simp only [bind, Except.bind] at hz₁ hz₂ hz₃
    cases fs with
    | nil => cases hz₁
    | cons f0 rest =>
    have hsy := hf f0 (pyStride_mem e (by simp))
    rw [← hsy] at hA hB ⊢
    exact build_joined hS hd hA hB hz₁ hz₂ hz₃
  | pymatgen k fr hf =>
    simp only [fromPymatgen, analyzerFrom, Traj.asOne, bind, Except.bind] at h₁ h₂ h₃
    split at h₁
    · cases h₁
    rename_i z₁ hz₁
    split at h₂
    · cases h₂
    rename_i z₂ hz₂
    split at h₃
    · cases h₃
    rename_i z₃ hz₃
    cases h₁
    cases h₂
    cases h₃
    exact pymatgen_joined hS hd hA hB hf hz₁ hz₂ hz₃
  | xdatcar structures k x hf =>
    simp only [fromXdatcar, analyzerFrom, Traj.asOne, bind, Except.bind] at h₁ h₂ h₃
    split at h₁
    · cases h₁
    rename_i z₁ hz₁
    split at h₂
    · cases h₂
    rename_i z₂ hz₂
    split at h₃
    · cases h₃
    rename_i z₃ hz₃
    cases h₁
    cases h₂
    cases h₃
    exact pymatgen_joined hS hd hA hB hf hz₁ hz₂ hz₃
  | file read k name hf =>
    simp only [fromFile, analyzerFrom, Traj.asOne, bind, Except.bind] at h₁ h₂ h₃
    cases e : read name with
    | error x => rw [e] at h₁; cases h₁
    | ok fr =>
    rw [e] at h₁ h₂ h₃
    dsimp only at h₁ h₂ h₃
    split at h₁
    · cases h₁
    rename_i z₁ hz₁
    split at h₂
    · cases h₂
    rename_i z₂ hz₂
    split at h₃
    · cases h₃
    rename_i z₃ hz₃
    cases h₁
    cases h₂
    cases h₃
    exact pymatgen_joined hS hd hA hB (hf fr e) hz₁ hz₂ hz₃
  | mda subAtoms k types fr hty =>
    simp only [fromUniverse, analyzerFrom, Traj.asOne, bind, Except.bind] at h₁ h₂ h₃
    split at h₁
    · cases h₁
    rename_i z₁ hz₁
    split at h₂
    · cases h₂
    rename_i z₂ hz₂
    split at h₃
    · cases h₃
    rename_i z₃ hz₃
    cases h₁
    cases h₂
    cases h₃
    unfold mdaParser at hz₁ hz₂ hz₃
    dsimp only at hz₁ hz₂ hz₃
    replace hz₁ := of_ite_error hz₁
    replace hz₂ := of_ite_error hz₂
    replace hz₃ := of_ite_error hz₃
    cases e : pyStride k fr with
    | error x => rw [e] at hz₁; cases hz₁
    | ok fs =>
    rw [e] at hz₁ hz₂ hz₃
    simp only [bind, Except.bind] at hz₁ hz₂ hz₃
    cases e2 : fs.mapM (mdaFrame types subAtoms) with
    | error x => rw [e2] at hz₁; cases hz₁
    | ok gs =>
    rw [e2] at hz₁ hz₂ hz₃
    dsimp only at hz₁ hz₂ hz₃
    cases gs with
    | nil => cases hz₁
    | cons f0 rest =>
    have hsy : f0.symbols = sy := by
      cases fs with
      | nil => cases e2
      | cons g gs =>
        rw [List.mapM_cons] at e2
        cases e3 : mdaFrame types subAtoms g with
        | error x => rw [e3] at e2; cases e2
        | ok y =>
          rw [e3] at e2
          simp only [bind, Except.bind] at e2
          split at e2
          · cases e2
          cases e2
          unfold mdaFrame at e3
          rw [hty] at e3
          simp only [bind, Except.bind] at e3
          split at e3
          · cases e3
          split at e3
          · cases e3
          cases e3
          rfl
    rw [← hsy] at hA hB ⊢
    exact build_joined hS hd hA hB hz₁ hz₂ hz₃

theorem forall₃_zip {α β γ : Type} {T : α → β → γ → Prop} {l : List α} {m : List β} {n : List γ} (h : Forall₃ T l m n) :
    ∃ t : List (α × β × γ), l = t.map (fun x => x.1) ∧ m = t.map (fun x => x.2.1) ∧ n = t.map (fun x => x.2.2) ∧ ∀ x ∈ t, T x.1 x.2.1 x.2.2 := by
  induction h with
  | nil => exact ⟨[], rfl, rfl, rfl, by simp⟩
  | cons h _ ih =>
    obtain ⟨t, rfl, rfl, rfl, ht⟩ := ih
    refine ⟨(_, _, _) :: t, rfl, rfl, rfl, fun x hx => ?_⟩
    rcases List.mem_cons.mp hx with rfl | hx
    · exact h
    · exact ht x hx

/-! ## C122 -/

/-- **C122.** One trajectory of any format, with explicit framework atoms, analysed for the species `A`, for the species `B`, and for both (no species in
both lists, each with at least two atoms): the times are the same, the MSD of both is at every time the mean of the two MSDs weighted with the numbers of
atoms, and the numbers of independent observations add up (in exact arithmetic). -/
theorem C122_species (E : Num K) (P : Params K) (S : Select K) (f : PySeq) (hS : S.framework = some f) (A B : List String) (hd : ∀ s ∈ A, s ∉ B)
    (sy : List String) (hA : 2 ≤ (chosen sy A).length) (hB : 2 ≤ (chosen sy B).length) (rd : Select K → PyM (Base K)) (hr : Reads E P sy rd)
    (sq : K → K) (o : Oracle K G) (U : UncParams K) (hblock : U.opt.block = false) (g₁ g₁' g₂ g₂' g₃ g₃' : G) (Z₁ Z₂ Z₃ : Analyzer K)
    (h₁ : diffusionAnalyzer sq o g₁ U (rd (withSpecies S A)) = .ok (Z₁, g₁')) (h₂ : diffusionAnalyzer sq o g₂ U (rd (withSpecies S B)) = .ok (Z₂, g₂'))
    (h₃ : diffusionAnalyzer sq o g₃ U (rd (withSpecies S (A ++ B))) = .ok (Z₃, g₃')) :
    Z₁.diff.dt = Z₃.diff.dt ∧ Z₂.diff.dt = Z₃.diff.dt ∧ Z₁.diff.n.length = Z₂.diff.n.length ∧
    Z₃.diff.n = List.zipWith (fun x y : K => ((chosen sy A).length * x + (chosen sy B).length * y) / ((chosen sy A).length + (chosen sy B).length)) Z₁.diff.n Z₂.diff.n ∧
    (E.fl = id → Z₁.nO.length = Z₂.nO.length ∧ Z₃.nO = List.zipWith (· + ·) Z₁.nO Z₂.nO) := by
  obtain ⟨B₁, hB₁, rfl, m₁⟩ := diffusion_inv h₁
  obtain ⟨B₂, hB₂, rfl, m₂⟩ := diffusion_inv h₂
  obtain ⟨B₃, hB₃, rfl, m₃⟩ := diffusion_inv h₃
  obtain ⟨k1, k2, k3, k4⟩ := reads_joined hS hd hA hB hr hB₁ hB₂ hB₃
  have hperm := chosen_append sy A B hd
  have hC : 2 ≤ (chosen sy (A ++ B)).length := by
    rw [hperm.length_eq, List.length_append]
    omega
  obtain ⟨t, e1, e2, e3, ht⟩ := forall₃_zip k3
  have two : ∀ {N m : ℕ}, 2 ≤ N → 0 < m → 2 ≤ N * m := fun h h' => by
    have := Nat.mul_le_mul h h'
    omega
  have w₁ : ∀ a ∈ Z₁.disp3d, 2 ≤ a.n0 * a.n1 := by
    rw [e1]
    intro a ha
    obtain ⟨x, hx, rfl⟩ := List.mem_map.mp ha
    obtain ⟨v, m, hm, ha, hb, hc⟩ := ht x hx
    rw [ha.n0, ha.n1]
    exact two hA hm
  have w₂ : ∀ a ∈ Z₂.disp3d, 2 ≤ a.n0 * a.n1 := by
    rw [e2]
    intro a ha
    obtain ⟨x, hx, rfl⟩ := List.mem_map.mp ha
    obtain ⟨v, m, hm, ha, hb, hc⟩ := ht x hx
    rw [hb.n0, hb.n1]
    exact two hB hm
  have w₃ : ∀ a ∈ Z₃.disp3d, 2 ≤ a.n0 * a.n1 := by
    rw [e3]
    intro a ha
    obtain ⟨x, hx, rfl⟩ := List.mem_map.mp ha
    obtain ⟨v, m, hm, ha, hb, hc⟩ := ht x hx
    rw [hc.n0, hc.n1]
    exact two hC hm
  obtain ⟨d₁, t₁, a1, a2, a3, -, a5⟩ := msd_columns sq o U.opt hblock g₁ g₁' _ _ _ U.sub U.dimension Z₁.diff w₁ m₁
  obtain ⟨d₂, t₂, b1, b2, b3, -, b5⟩ := msd_columns sq o U.opt hblock g₂ g₂' _ _ _ U.sub U.dimension Z₂.diff w₂ m₂
  obtain ⟨d₃, t₃, c1, c2, c3, -, c5⟩ := msd_columns sq o U.opt hblock g₃ g₃' _ _ _ U.sub U.dimension Z₃.diff w₃ m₃
  rw [k1, c2] at a2
  rw [k2, c2] at b2
  cases a2
  cases b2
  rw [e1, pyStride_map] at a1
  rw [e2, pyStride_map] at b1
  rw [e3, pyStride_map] at c1
  cases hs : pyStride U.sub t with
  | error x => rw [hs] at a1; cases a1
  | ok q =>
  rw [hs] at a1 b1 c1
  obtain rfl := Except.ok.inj a1
  obtain rfl := Except.ok.inj b1
  obtain rfl := Except.ok.inj c1
  refine ⟨?_, ?_, ?_, ?_, fun hid => ?_⟩
  · rw [a5, c5]; simp
  · rw [b5, c5]; simp
  · rw [a3, b3]; simp
  · rw [a3, b3, c3, List.map_map, List.map_map, List.map_map, List.zipWith_map, List.zipWith_self]
    exact List.map_congr_left fun x hx => msd_joined hA hB hperm (ht x (pyStride_mem hs hx)) _
  · obtain ⟨u, u1, u2, u3, hu⟩ := forall₃_zip (k4 hid)
    rw [u1, u2, u3]
    refine ⟨by simp, ?_⟩
    rw [List.zipWith_map, List.zipWith_self]
    exact List.map_congr_left fun x hx => hu x hx

/-! ## Examples -/

/-- Two Li atoms, two Na atoms and an O atom: at frame `j` they have moved by `j / 10`, `-j / 20`, `j² / 100`, `0` and `0` cells along x. -/
def exMixed : List (Frame ℚ) :=
  (List.range 5).map fun j : ℕ =>
    { symbols := ["Li", "Na", "Li", "O", "Na"]
      frac := [![(j : ℚ) / 10, 0, 0], ![(j : ℚ) ^ 2 / 100, 0, 0], ![1 / 2 - (j : ℚ) / 20, 0, 0], ![0, 1 / 2, 0], ![0, 0, 1 / 2]]
      latt := exBox
      volume := 1000 }

/-- The O atom is the framework. -/
def exMixedSelect : Select ℚ := ⟨none, .none, none, some ⟨false, [3]⟩⟩

/-- The MSDs of Li, of Na and of both, and the numbers of observations. -/
def exMixedRun (S : Select ℚ) : PyM (Analyzer ℚ × Unit) :=
  diffusionAnalyzer id (exOracle ℚ) () exUnc (fromAse exNum exParams S 1 none (.one exMixed))

theorem exMixed_values :
    (exMixedRun (withSpecies exMixedSelect ["Li"])).toOption.map (fun z => (z.1.diff.n, z.1.nO)) =
      some ([1 / 2, 65 / 32, 55 / 12, 125 / 16, 10], [10, 5, 10 / 3, 5 / 2, 2]) ∧
    (exMixedRun (withSpecies exMixedSelect ["Na"])).toOption.map (fun z => (z.1.diff.n, z.1.nO)) =
      some ([21 / 250, 9 / 32, 161 / 300, 337 / 400, 32 / 25], [10, 5, 10 / 3, 5 / 2, 2]) ∧
    (exMixedRun (withSpecies exMixedSelect ["Li", "Na"])).toOption.map (fun z => (z.1.diff.n, z.1.nO)) =
      some ([73 / 250, 37 / 32, 64 / 25, 1731 / 400, 141 / 25], [20, 10, 20 / 3, 5, 4]) := by
  refine ⟨by decide +kernel, by decide +kernel, by decide +kernel⟩

/-- The hypotheses of `C122_species` hold for the three analyses of the example; none of the MSDs is zero. -/
example : (∀ s ∈ ["Li"], s ∉ ["Na"]) ∧ 2 ≤ (chosen ["Li", "Na", "Li", "O", "Na"] ["Li"]).length ∧ 2 ≤ (chosen ["Li", "Na", "Li", "O", "Na"] ["Na"]).length ∧
    Reads exNum exParams ["Li", "Na", "Li", "O", "Na"] (fun S => fromAse exNum exParams S 1 none (.one exMixed)) ∧ exUnc.opt.block = false ∧ exNum.fl = id ∧
    (exMixedRun (withSpecies exMixedSelect ["Li"])).toOption.isSome = true ∧ (exMixedRun (withSpecies exMixedSelect ["Na"])).toOption.isSome = true ∧
    (exMixedRun (withSpecies exMixedSelect (["Li"] ++ ["Na"]))).toOption.isSome = true := by
  refine ⟨by decide, by decide, by decide, .ase 1 exMixed ?_, rfl, rfl, by decide +kernel, by decide +kernel, by decide +kernel⟩
  simp [exMixed]

/-- Why the framework must be given: left to itself, kinisi takes all other atoms as the framework, so that the Na atoms are part of the framework of the
Li atoms, and the MSDs are not combined. -/
theorem C122_framework_needed :
    (exMixedRun ⟨some ["Li"], .none, none, none⟩).toOption.map (fun z => z.1.diff.n.head?) = some (some (349 / 750)) ∧
    (exMixedRun ⟨some ["Na"], .none, none, none⟩).toOption.map (fun z => z.1.diff.n.head?) = some (some (119 / 2250)) ∧
    (exMixedRun ⟨some ["Li", "Na"], .none, none, none⟩).toOption.map (fun z => z.1.diff.n.head?) = some (some (73 / 250)) ∧
    ((2 * (349 / 750) + 2 * (119 / 2250)) / (2 + 2) : ℚ) ≠ 73 / 250 := by
  refine ⟨by decide +kernel, by decide +kernel, by decide +kernel, by norm_num⟩

end Kinisi
