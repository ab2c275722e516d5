import Verif.Props.AnyAtoms

/-!
# The number of observations in terms of the times
-/

set_option linter.unusedSectionVars false
set_option linter.unusedVariables false

namespace Kinisi
open Spec

variable {K : Type} [Field K] [LinearOrder K] [IsStrictOrderedRing K] [FloorRing K] {G : Type}

/-- `n_o[i] Δt[i]` is the number of atoms times the longest time. -/
theorem parserInit_count {E : Num K} (hfl : E.fl = id) {P : Params K} (hsm : P.sampling = "multi-origin") {w : Bool} {disp : Arr3 K} {sel : Selection} {r : Parsed K}
    (h : parserInit E P w disp sel = .ok r) (hc : 0 < P.stepSkip.val * P.timeStep.val) (hpos : ∀ t ∈ r.deltaT, 0 < t) (hasc : r.deltaT.Pairwise (· ≤ ·)) :
    (∀ n ∈ r.nO, 0 < n) ∧ r.nO.length = r.disp3d.length ∧ ∀ M : ℕ, (∀ a ∈ r.disp3d, a.n0 = M) → ∀ (k : ℕ) (t n : K), r.deltaT[k]? = some t → r.nO[k]? = some n → n * t = M * r.deltaT.getLastD 0 := by
  obtain ⟨dc, ti, xs, a1, a2, a3, a4, a5, a6⟩ := parserInit_mapM h
  set c := P.stepSkip.val * P.timeStep.val with hcd
  have hdt : r.deltaT = ti.map fun τ : ℤ => (τ : K) * c := by
    rw [a4]
    refine List.map_congr_left fun τ _ => ?_
    rw [hfl]
    unfold deltaTOf
    rw [PyNum.val_mul_id, PyNum.val_mul_id]
    have hv : (PyNum.int τ : PyNum K).val = (τ : K) := rfl
    rw [hcd]
    rw [hv]
    ring
  have h1 : ∀ τ ∈ ti, 1 ≤ τ := by
    intro τ hτ
    have := hpos ((τ : K) * c) (by rw [hdt]; exact List.mem_map.2 ⟨τ, hτ, rfl⟩)
    have h0 : (0 : K) < (τ : K) := pos_of_mul_pos_left this hc.le
    have : (0 : ℤ) < τ := by exact_mod_cast h0
    omega
  have hle : ∀ (i j : ℕ) (σ τ : ℤ), i < j → ti[i]? = some σ → ti[j]? = some τ → σ ≤ τ := by
    intro i j σ τ hij e1 e2
    rw [hdt] at hasc
    obtain ⟨l1, e1⟩ := List.getElem?_eq_some_iff.mp e1
    obtain ⟨l2, e2⟩ := List.getElem?_eq_some_iff.mp e2
    have := List.pairwise_iff_getElem.1 hasc i j (by simpa using l1) (by simpa using l2) hij
    rw [List.getElem_map, List.getElem_map, e1, e2] at this
    exact_mod_cast le_of_mul_le_mul_right this hc
  rw [hfl, hsm] at a3
  obtain ⟨hl, hg⟩ := mapM_ok_inv a3
  have hat : ∀ (i : ℕ) (x : Option (Arr3 K × K)), xs[i]? = some x → ∃ τ, ti[i]? = some τ ∧
      oneInterval id sel.indices "multi-origin" (ti.getLastD 0) dc (τ, i) = .ok x := by
    intro i x hx
    have hi : i < ti.length := by
      have := (List.getElem?_eq_some_iff.mp hx).1
      rw [hl, List.length_zipIdx] at this
      exact this
    obtain ⟨y, hy, hyi⟩ := hg i (ti[i], i) (by rw [List.getElem?_zipIdx, List.getElem?_eq_getElem hi]; simp)
    obtain rfl : x = y := Option.some.inj (hx.symm.trans hyi)
    exact ⟨_, List.getElem?_eq_getElem hi, hy⟩
  obtain ⟨N, hN⟩ : ∃ N : ℕ, ∀ (i : ℕ) (x : Arr3 K × K) (τ : ℤ), ti[i]? = some τ → oneInterval id sel.indices "multi-origin" (ti.getLastD 0) dc (τ, i) = .ok (some x) →
      τ ≠ 0 ∧ 1 ≤ N ∧ x.1.n0 = N ∧ x.2 = (((N : ℤ) * ti.getLastD 0 : ℤ) : K) / (τ : K) := by
    cases hr : sel.indices.mapM (npIdx dc.n0) with
    | error e =>
      refine ⟨0, fun i x τ _ hx => ?_⟩
      obtain ⟨rows, b1, -⟩ := oneInterval_moves hx
      rw [hr] at b1; cases b1
    | ok rows =>
      refine ⟨rows.length, fun i x τ _ hx => ?_⟩
      obtain ⟨rows', b1, b2, b3, b4⟩ := oneInterval_moves hx
      rw [hr] at b1
      cases b1
      refine ⟨b2, ?_⟩
      rcases b4 with ⟨-, h⟩ | ⟨h1, h⟩ | ⟨h1, h⟩
      · cases h
      · rw [Option.some.inj h]; exact ⟨h1.ge, b3, rfl⟩
      · rw [Option.some.inj h]; exact ⟨by omega, b3, rfl⟩
  refine ⟨fun n hn => ?_, by rw [a5, a6, List.length_map, List.length_map], fun M hM k t n e1 e2 => ?_⟩
  · rw [a6] at hn
    obtain ⟨x, hx, rfl⟩ := List.mem_map.1 hn
    obtain ⟨y, hy, rfl⟩ := List.mem_filterMap.1 hx
    obtain ⟨i, hi⟩ := List.mem_iff_getElem?.1 hy
    obtain ⟨τ, s1, s2⟩ := hat i _ hi
    obtain ⟨-, hN1, -, he⟩ := hN i x τ s1 s2
    have hτ := h1 τ (List.mem_of_getElem? s1)
    have hlast : 1 ≤ ti.getLastD 0 := by
      have hne : ti ≠ [] := by rintro rfl; simp at s1
      rw [List.getLastD_eq_getLast?, List.getLast?_eq_some_getLast hne]
      exact h1 _ (List.getLast_mem hne)
    rw [he]
    have p1 : (0 : K) < ((N : ℤ) * ti.getLastD 0 : ℤ) := by
      have : (0 : ℤ) < (N : ℤ) * ti.getLastD 0 := by positivity
      exact_mod_cast this
    have p2 : (0 : K) < (τ : K) := by exact_mod_cast (by omega : (0 : ℤ) < τ)
    exact div_pos p1 p2
  rw [hdt, List.getElem?_map] at e1
  obtain ⟨τ, hτ, rfl⟩ := Option.map_eq_some_iff.1 e1
  rw [a6, List.getElem?_map] at e2
  obtain ⟨x, hx, rfl⟩ := Option.map_eq_some_iff.1 e2
  have hx' := filterMap_id_prefix (l := xs) (fun i j u v hij h2 h3 => by
    obtain ⟨σ, s1, s2⟩ := hat i u h2
    obtain ⟨τ', t1, t2⟩ := hat j _ h3
    exact oneInterval_shorter (h1 σ (List.mem_of_getElem? s1)) (hle i j σ τ' hij s1 t1) t2 s2) hx
  obtain ⟨τ', t1, t2⟩ := hat k _ hx'
  obtain rfl : τ = τ' := Option.some.inj (hτ.symm.trans t1)
  obtain ⟨hz, -, hn0, he⟩ := hN k x τ t1 t2
  have hNM : N = M := by
    rw [← hn0]
    exact hM x.1 (by rw [a5]; exact List.mem_map.2 ⟨x, List.mem_of_getElem? hx, rfl⟩)
  have hlast : r.deltaT.getLastD 0 = ((ti.getLastD 0 : ℤ) : K) * c := by
    have hne : ti ≠ [] := by rintro rfl; simp at hτ
    rw [hdt, List.getLastD_eq_getLast?, List.getLastD_eq_getLast?, List.getLast?_map, List.getLast?_eq_some_getLast hne]
    rfl
  rw [he, hlast, ← hNM]
  have : ((τ : ℤ) : K) ≠ 0 := by exact_mod_cast hz
  push_cast
  field_simp

theorem read_count {E : Num K} (hfl : E.fl = id) {P : Params K} (hsm : P.sampling = "multi-origin") (hc : 0 < P.stepSkip.val * P.timeStep.val) {S : Select K} {fr : List (Frame K)} {uni : Universe K} {base : PyM (Base K)}
    {unit : K} (hb : ReadFrames E P S fr uni base unit) {B : Base K} (hB : base = .ok B) (hpos : ∀ t ∈ B.deltaT, 0 < t) (hasc : B.deltaT.Pairwise (· ≤ ·)) :
    (∀ n ∈ B.nO, 0 < n) ∧ B.nO.length = B.disp3d.length ∧ ∀ M : ℕ, (∀ a ∈ B.disp3d, a.n0 = M) → ∀ (k : ℕ) (t n : K), B.deltaT[k]? = some t → B.nO[k]? = some n → n * t = M * B.deltaT.getLastD 0 := by
  have hk : 0 < (P.stepSkip.mul E.fl (.int 1)).val * P.timeStep.val := by
    rw [hfl, PyNum.val_mul_id]
    simpa [PyNum.val] using hc
  rcases hb with ⟨rfl, -⟩ | ⟨rfl, -⟩ | ⟨rfl, -⟩
  · simp only [fromAse, analyzerFrom, Traj.asOne, bind, Except.bind] at hB
    split at hB
    · cases hB
    rename_i z hz
    cases hB
    unfold aseParser at hz
    cases e : pyStride 1 fr with
    | error x => rw [e] at hz; cases hz
    | ok fs =>
    rw [e] at hz
    simp only [bind, Except.bind] at hz
    cases fs with
    | nil => cases hz
    | cons f0 rest =>
    obtain ⟨cs, sel, w, disp, r0, -, -, e3, rfl⟩ := buildParser_inv hz
    exact parserInit_count hfl hsm e3 hc hpos hasc
  · simp only [fromPymatgen, analyzerFrom, Traj.asOne, bind, Except.bind] at hB
    split at hB
    · cases hB
    rename_i z hz
    cases hB
    unfold pymatgenParser at hz
    cases e : pyStride 1 fr with
    | error x => rw [e] at hz; cases hz
    | ok fs =>
    rw [e] at hz
    simp only [bind, Except.bind] at hz
    cases fs with
    | nil => cases hz
    | cons f0 rest =>
    simp only [structureCoordsLatt] at hz
    split at hz
    · cases hz
    rename_i y hy
    split_ifs at hz
    cases hz
    obtain ⟨cs, sel, w, disp, r0, -, -, e3, rfl⟩ := buildParser_inv hy
    simp only [baseOf] at hpos hasc ⊢
    have hf : ∀ t : K, E.fl (t * E.fl (1 / 10 ^ 3)) = t * (1 / 10 ^ 3) := fun t => by rw [hfl]; rfl
    simp only [hf] at hpos hasc ⊢
    have h10 : (0 : K) < 1 / 10 ^ 3 := by positivity
    obtain ⟨hn, hl, hκ⟩ := parserInit_count (P := { P with stepSkip := P.stepSkip.mul E.fl (.int 1) }) hfl hsm e3 hk
      (fun t ht => pos_of_mul_pos_left (hpos _ (List.mem_map.2 ⟨t, ht, rfl⟩)) h10.le)
      ((List.pairwise_map.1 hasc).imp fun h => le_of_mul_le_mul_right h h10)
    refine ⟨hn, hl, fun M hM k t n e1 e2 => ?_⟩
    rw [List.getElem?_map] at e1
    obtain ⟨t', ht', rfl⟩ := Option.map_eq_some_iff.1 e1
    have key := hκ M hM k t' n ht' e2
    have hg : ∀ l : List K, (l.map fun t => t * (1 / 10 ^ 3)).getLastD 0 = l.getLastD 0 * (1 / 10 ^ 3) := by
      intro l
      rw [List.getLastD_eq_getLast?, List.getLastD_eq_getLast?, List.getLast?_map]
      cases l.getLast? <;> simp
    rw [hg, ← mul_assoc, key, mul_assoc]
  · simp only [fromUniverse, analyzerFrom, Traj.asOne, bind, Except.bind] at hB
    split at hB
    · cases hB
    rename_i z hz
    cases hB
    unfold mdaParser at hz
    dsimp only at hz
    replace hz := of_ite_error hz
    cases e : pyStride 1 uni.2 with
    | error x => rw [e] at hz; cases hz
    | ok fs =>
    rw [e] at hz
    simp only [bind, Except.bind] at hz
    cases e2 : fs.mapM (mdaFrame uni.1 1) with
    | error x => rw [e2] at hz; cases hz
    | ok gs =>
    rw [e2] at hz
    dsimp only at hz
    cases gs with
    | nil => cases hz
    | cons f0 rest =>
    obtain ⟨cs, sel, w, disp, r0, -, -, e3, rfl⟩ := buildParser_inv hz
    exact parserInit_count (P := { P with stepSkip := P.stepSkip.mul E.fl (.int 1) }) hfl hsm e3 hk hpos hasc

end Kinisi
