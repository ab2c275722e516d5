import Verif.Lemmas.GetDisps
import Verif.Lemmas.Select
import Verif.Model.Parser
import Verif.Spec.Path

set_option linter.unusedSectionVars false

namespace Kinisi
open Spec
variable {K : Type} [Field K] [LinearOrder K] [IsStrictOrderedRing K] [FloorRing K]

/-! ## Strides -/

theorem stride_one {α : Type} (l : List α) : stride 1 l = l := by
  unfold stride
  have hc : strideCount l.length ((1 : ℕ) : ℤ) = l.length := by unfold strideCount; simp
  rw [hc]
  apply List.ext_getElem?
  intro i
  have h : (List.range l.length).filterMap (fun i => l[1 * i]?) = l := by
    induction l using List.reverseRecOn with
    | nil => rfl
    | append_singleton l a ih =>
      rw [List.length_append, List.length_singleton, List.range_succ, List.filterMap_append]
      have h1 : List.filterMap (fun i => (l ++ [a])[1 * i]?) (List.range l.length) = l := by
        conv_rhs => rw [← ih (by unfold strideCount; simp)]
        apply List.filterMap_congr
        intro i hi
        rw [List.mem_range] at hi
        simp [List.getElem?_append_left hi]
      rw [h1]
      simp
  rw [h]

theorem pyStride_one {α : Type} (l : List α) : pyStride 1 l = .ok l := by
  unfold pyStride
  rw [if_neg (by decide), if_pos (by decide)]
  exact congrArg _ (stride_one l)

/-- Entries of a stride. -/
theorem stride_getElem? {α : Type} (k : ℕ) (hk : 0 < k) (l : List α) (i : ℕ) : (stride k l)[i]? = l[k * i]? := by
  unfold stride
  have hlt : ∀ i, i < strideCount l.length k ↔ k * i < l.length := by
    intro i
    unfold strideCount
    simp only [Int.natAbs_natCast]
    rw [Nat.lt_iff_add_one_le, Nat.le_div_iff_mul_le hk]
    constructor
    · intro h
      have : (i + 1) * k = k * i + k := by ring
      omega
    · intro h
      have : (i + 1) * k = k * i + k := by ring
      omega
  have hmap : (List.range (strideCount l.length k)).filterMap (fun i => l[k * i]?)
      = (List.range (strideCount l.length k)).attach.map
        (fun i => l[k * i.1]'((hlt i.1).1 (List.mem_range.1 i.2))) := by
    conv_lhs => rw [← List.attach_map_subtype_val (List.range (strideCount l.length k)), List.filterMap_map]
    rw [← List.filterMap_eq_map]
    apply List.filterMap_congr
    rintro ⟨i, hi⟩ -
    simp only [Function.comp]
    rw [List.getElem?_eq_getElem]
  rw [hmap, List.getElem?_map]
  by_cases h : i < strideCount l.length k
  · rw [List.getElem?_eq_getElem (by simpa using h)]
    simp only [List.getElem_attach, Option.map_some]
    rw [List.getElem?_eq_getElem ((hlt i).1 h)]
    simp
  · rw [List.getElem?_eq_none (by simpa using h)]
    have := mt (hlt i).2 h
    rw [List.getElem?_eq_none (by omega)]
    rfl

theorem stride_length {α : Type} (k : ℕ) (hk : 0 < k) (l : List α) : (stride k l).length = (l.length + k - 1) / k := by
  apply Nat.le_antisymm
  · by_contra hlt
    have h1 : (l.length + k - 1) / k < (stride k l).length := not_le.mp hlt
    have h2 := stride_getElem? k hk l ((l.length + k - 1) / k)
    rw [List.getElem?_eq_getElem h1] at h2
    have h3 : k * ((l.length + k - 1) / k) < l.length := by
      by_contra h4
      rw [List.getElem?_eq_none (not_lt.mp h4)] at h2
      cases h2
    have := Nat.div_add_mod (l.length + k - 1) k
    have := Nat.mod_lt (l.length + k - 1) hk
    omega
  · by_contra hlt
    have h1 : (stride k l).length < (l.length + k - 1) / k := not_le.mp hlt
    have h2 := stride_getElem? k hk l (stride k l).length
    rw [List.getElem?_eq_none (le_refl _)] at h2
    have h3 : l.length ≤ k * (stride k l).length := List.getElem?_eq_none_iff.mp h2.symm
    have h4 : k * ((stride k l).length + 1) ≤ k * ((l.length + k - 1) / k) := Nat.mul_le_mul_left k h1
    have := Nat.mul_div_le (l.length + k - 1) k
    rw [Nat.mul_add] at h4
    omega

theorem stride_map {α β : Type} (k : ℕ) (hk : 0 < k) (f : α → β) (l : List α) : stride k (l.map f) = (stride k l).map f := by
  apply List.ext_getElem?
  intro i
  rw [stride_getElem? k hk, List.getElem?_map, List.getElem?_map, stride_getElem? k hk]

theorem stride_nil {α : Type} (k : ℕ) : stride k ([] : List α) = [] := by
  unfold stride
  simp

theorem pyStride_nil {α : Type} {k : ℤ} (hk : k ≠ 0) : pyStride k ([] : List α) = .ok [] := by
  unfold pyStride
  rw [if_neg hk]
  split_ifs
  · rw [stride_nil]
  · rw [List.reverse_nil, stride_nil]

/-! ## Inversion of the constructors -/

theorem correctDriftSeq_inv {s : PySeq} {disp dc : Arr3 K} (h : correctDriftSeq s disp = .ok dc) :
    dc.n0 = disp.n0 ∧ dc.n1 = disp.n1 ∧ (∀ d ∈ s.vals, ValidIdx disp.n0 d) ∧
      ∀ i j l, dc.get i j l = disp.get i j l - meanOver (s.vals.map (atomOf disp.n0)) fun r => disp.get r j l := by
  unfold correctDriftSeq at h
  by_cases h1 : (s.isTuple && decide (0 < s.vals.length)) = true
  · rw [if_pos h1] at h; cases h
  rw [if_neg h1] at h
  unfold correctDrift at h
  by_cases h2 : s.vals.length > 0
  · rw [if_pos h2] at h
    have hv : ∀ d ∈ s.vals, ValidIdx disp.n0 d := by
      intro d hd
      by_contra hc
      have : s.vals.mapM (npIdx disp.n0) = .error .indexError := by
        apply mapM_except_err _ _ _ d hd (npIdx_invalid hc)
        intro b _
        by_cases hb : ValidIdx disp.n0 b
        · exact Or.inr ⟨_, npIdx_valid hb⟩
        · exact Or.inl (npIdx_invalid hb)
      rw [this] at h
      cases h
    rw [rows_ok hv] at h
    simp only [bind, Except.bind, Except.ok.injEq] at h
    subst h
    exact ⟨rfl, rfl, hv, fun i j l => rfl⟩
  · rw [if_neg h2] at h
    obtain rfl := Except.ok.inj h
    have : s.vals = [] := List.length_eq_zero_iff.1 (by omega)
    refine ⟨rfl, rfl, by simp [this], ?_⟩
    intro i j l
    simp [this, meanOver]

theorem parserInit_inv {E : Num K} {P : Params K} {w : Bool} {disp : Arr3 K} {sel : Selection} {r : Parsed K}
    (h : parserInit E P w disp sel = .ok r) :
    correctDriftSeq sel.drift disp = .ok r.dc ∧
    initTimeIntervals E.fl E.geo r.dc.n1 P.timeStep P.stepSkip P.minDt P.maxDt P.nSteps P.spacing = .ok r.intervals ∧
    getDisps E.fl (E.fl (1 / 10 ^ 9)) P.itemsize P.timeStep P.stepSkip sel.indices P.sampling P.memoryLimit r.intervals r.dc
      = .ok ⟨r.deltaT, r.disp3d, r.nO⟩ ∧
    r.indices = sel.indices ∧ r.drift = sel.drift.vals ∧ r.warned = w ∧ r.timeStep = P.timeStep ∧ r.stepSkip = P.stepSkip ∧
    r.deltaInt = (P.timeStep.isInt && P.stepSkip.isInt) := by
  unfold parserInit at h
  cases hdc : correctDriftSeq sel.drift disp with
  | error e => rw [hdc] at h; cases h
  | ok dc =>
  rw [hdc] at h
  simp only [bind, Except.bind] at h
  cases hti : initTimeIntervals E.fl E.geo dc.n1 P.timeStep P.stepSkip P.minDt P.maxDt P.nSteps P.spacing with
  | error e => rw [hti] at h; cases h
  | ok ti =>
  rw [hti] at h
  simp only at h
  cases hgd : getDisps E.fl (E.fl (1 / 10 ^ 9)) P.itemsize P.timeStep P.stepSkip sel.indices P.sampling P.memoryLimit ti dc with
  | error e => rw [hgd] at h; cases h
  | ok o =>
  rw [hgd] at h
  simp only [Except.ok.injEq] at h
  subst h
  exact ⟨rfl, hti, hgd, rfl, rfl, rfl, rfl, rfl, rfl⟩

theorem buildParser_inv {E : Num K} {P : Params K} {S : Select K} {st : Frame K} {coords : List (List (V3 K))}
    {latt : List (M3 K)} {r : Parsed K} (h : buildParser E P S st coords latt = .ok r) :
    ∃ coords' sel w disp r0, selectAtoms E.trig st.symbols coords S = .ok (coords', sel) ∧
      getDisp coords' latt = .ok (w, disp) ∧ parserInit E P w disp sel = .ok r0 ∧
      r = { r0 with coordsCheck := coords'.headD [], volume := some st.volume } := by
  unfold buildParser at h
  cases hs : selectAtoms E.trig st.symbols coords S with
  | error e => rw [hs] at h; cases h
  | ok cs =>
  obtain ⟨coords', sel⟩ := cs
  rw [hs] at h
  simp only [bind, Except.bind] at h
  cases hd : getDisp coords' latt with
  | error e => rw [hd] at h; cases h
  | ok wd =>
  obtain ⟨w, disp⟩ := wd
  rw [hd] at h
  simp only at h
  cases hp : parserInit E P w disp sel with
  | error e => rw [hp] at h; cases h
  | ok r0 =>
  rw [hp] at h
  simp only [Except.ok.injEq] at h
  exact ⟨coords', sel, w, disp, r0, rfl, hd, hp, h.symm⟩

theorem getDisp_inv {coords : List (List (V3 K))} {latt : List (M3 K)} {w : Bool} {a : Arr3 K}
    (h : getDisp coords latt = .ok (w, a)) :
    coords ≠ [] ∧ (∀ c ∈ coords, c.length = a.n0) ∧ coords.length = latt.length ∧ (∀ L ∈ latt, det3 L ≠ 0) ∧
    a.n1 = coords.length - 1 ∧ w = triclinicTest latt ∧
    ∀ i j l, j < a.n1 → a.get i j l = ∑ t ∈ Finset.range (j + 1),
      unwrapStep ((coords.getD t []).getD i 0) ((coords.getD (t + 1) []).getD i 0) (latt.getD t 0) (latt.getD (t + 1) 0)
        (invFun (latt.getD (t + 1) 0)) l := by
  unfold getDisp at h
  cases coords with
  | nil => cases h
  | cons c0 cs =>
  dsimp only at h
  by_cases hall : ((c0 :: cs).all fun c => decide (c.length = c0.length)) = true
  · rw [if_pos hall] at h
    have hdet : ∀ L ∈ latt, det3 L ≠ 0 := by
      intro L hL hc
      have : latt.mapM inv3 = .error .linAlgError := by
        apply mapM_except_err inv3 _ latt L hL (inv3_err hc)
        intro B _
        by_cases hB : det3 B = 0
        · exact Or.inl (inv3_err hB)
        · exact Or.inr ⟨_, inv3_ok hB⟩
      rw [this] at h
      cases h
    have hm : latt.mapM inv3 = .ok (latt.map invFun) := mapM_except_ok _ _ _ fun A hA => inv3_ok (hdet A hA)
    rw [hm] at h
    simp only [bind, Except.bind] at h
    by_cases hlen : (c0 :: cs).length ≠ latt.length
    · rw [if_pos hlen] at h; cases h
    rw [if_neg hlen] at h
    push Not at hlen
    simp only [Except.ok.injEq, Prod.mk.injEq] at h
    obtain ⟨hw, ha⟩ := h
    subst ha
    refine ⟨by simp, ?_, hlen, hdet, rfl, hw.symm, ?_⟩
    · intro c hc
      exact of_decide_eq_true (List.all_eq_true.1 hall c hc)
    · intro i j l hj
      simp only at hj ⊢
      apply Finset.sum_congr rfl
      intro t ht
      rw [Finset.mem_range] at ht
      congr 1
      have htl : t + 1 < latt.length := by
        have : (c0 :: cs).length - 1 = latt.length - 1 := by rw [hlen]
        omega
      simp [List.getD, htl]
  · rw [if_neg hall] at h; cases h

theorem mapM_dup {α β : Type} (f : α → PyM β) (a : α) (l : List α) :
    (a :: a :: l).mapM f = (do let r ← (a :: l).mapM f; pure (r.head?.toList ++ r)) := by
  simp only [List.mapM_cons]
  cases f a with
  | error e => rfl
  | ok b =>
    simp only [bind, Except.bind]
    cases l.mapM f with
    | error e => rfl
    | ok r => rfl

/-- Selecting atoms commutes with the duplication of the first frame. -/
theorem selectAtoms_dup (tr : Trig K) (symbols : List String) (c0 : List (V3 K)) (cs : List (List (V3 K))) (S : Select K) :
    selectAtoms tr symbols (c0 :: c0 :: cs) S =
      (selectAtoms tr symbols (c0 :: cs) S).map fun r => (r.1.head?.toList ++ r.1, r.2) := by
  unfold selectAtoms
  cases hs : S.specie with
  | some sp =>
    dsimp only
    cases getIndices symbols sp S.framework with
    | error e => rfl
    | ok sel => rfl
  | none =>
    dsimp only
    cases S.specieIdx with
    | none => rfl
    | flat s =>
      dsimp only
      split_ifs
      · rfl
      · cases getFramework symbols.length s.vals S.framework with
        | error e => rfl
        | ok sel => rfl
    | mols ms =>
      dsimp only
      by_cases h0 : ms.length = 0
      · rw [if_pos h0, if_pos h0]; rfl
      rw [if_neg h0, if_neg h0]
      unfold getMolecules
      dsimp only
      by_cases h1 : (ms.all fun m => decide (m.length = (ms.headD []).length)) = false
      · rw [if_pos h1, if_pos h1]; rfl
      rw [if_neg h1, if_neg h1]
      by_cases h2 : massesFit S.masses (ms.headD []).length = false
      · rw [if_pos h2, if_pos h2]; rfl
      rw [if_neg h2, if_neg h2]
      by_cases h3 : ((c0 :: cs).all fun c => decide (c.length = ((c0 :: cs).headD []).length)) = false
      · have h3' : ((c0 :: c0 :: cs).all fun c => decide (c.length = ((c0 :: c0 :: cs).headD []).length)) = false := by
          simpa using h3
        rw [if_pos h3', if_pos h3]; rfl
      have h3' : ¬ ((c0 :: c0 :: cs).all fun c => decide (c.length = ((c0 :: c0 :: cs).headD []).length)) = false := by
        simpa using h3
      rw [if_neg h3', if_neg h3]
      by_cases h4 : (ms.headD []).length = 0
      · rw [if_pos h4, if_pos h4]; rfl
      rw [if_neg h4, if_neg h4]
      simp only [bind, Except.bind, List.headD_cons]
      cases ((ms.map fun m => m.map (· - 1)).mapM fun m => m.mapM (npIdx c0.length)) with
      | error e => rfl
      | ok atoms =>
      simp only
      rw [mapM_dup]
      cases hc : ((c0 :: cs).mapM fun c => atoms.mapM fun m => moleculeCentre3 tr S.masses c m) with
      | error e => rfl
      | ok com =>
      simp only [bind, Except.bind, pure, Except.pure]
      have hlen := (mapM_except_inv hc).1
      by_cases h5 : floatIndex S.framework = true
      · rw [if_pos h5, if_pos h5]; rfl
      rw [if_neg h5, if_neg h5]
      cases (moleculeDrift symbols.length (ms.map fun m => m.map (· - 1)) S.framework).mapM (npIdx c0.length) with
      | error e => rfl
      | ok dr =>
      simp only [Except.map]
      cases com with
      | nil => simp at hlen
      | cons m0 ms' => simp

/-- Inversion of `getDisps` for positive intervals. -/
theorem getDisps_multi_inv {fl : K → K} {giga : K} {itemsize : ℕ} {ts ss : PyNum K} {idx : List ℤ} {limit : K} {iv : List ℤ}
    {dc : Arr3 K} {o : DispsOut K} (h : getDisps fl giga itemsize ts ss idx "multi-origin" limit iv dc = .ok o)
    (h1 : ∀ τ ∈ iv, 1 ≤ τ) :
    ∃ nat : List ℕ, iv = nat.map (fun τ : ℕ => (τ : ℤ)) ∧ (∀ τ ∈ nat, 1 ≤ τ ∧ τ ≤ dc.n1) ∧
      (iv ≠ [] → ∀ d ∈ idx, ValidIdx dc.n0 d) ∧
      o.deltaT = iv.map (fun τ => (deltaTOf fl ts ss τ).val) ∧
      o.disp3d = (keptPairs fl idx (iv.getLastD 0) dc nat).map Prod.fst ∧
      o.nO = (keptPairs fl idx (iv.getLastD 0) dc nat).map Prod.snd := by
  have hb := getDisps_ok_interval h
  obtain ⟨nat, hnat⟩ : ∃ nat : List ℕ, iv = nat.map (fun τ : ℕ => (τ : ℤ)) := by
    refine ⟨iv.map Int.toNat, ?_⟩
    rw [List.map_map]
    conv_lhs => rw [← List.map_id iv]
    apply List.map_congr_left
    intro τ hτ
    have := h1 τ hτ
    simp only [id, Function.comp]
    omega
  subst hnat
  have hτ : ∀ τ ∈ nat, 1 ≤ τ ∧ τ ≤ dc.n1 := by
    intro τ hm
    have hm' : (τ : ℤ) ∈ nat.map fun τ : ℕ => (τ : ℤ) := List.mem_map.2 ⟨τ, hm, rfl⟩
    have a := h1 _ hm'
    have b := (hb _ hm').2
    omega
  by_cases hne : nat = []
  · subst hne
    refine ⟨[], rfl, by simp, by simp, ?_⟩
    unfold getDisps at h
    simp only [List.map_nil, checkRows, List.length_nil, if_true, bind, Except.bind, List.zipIdx_nil, List.mapM_nil, pure, Except.pure] at h
    split_ifs at h
    obtain rfl := Except.ok.inj h
    simp [keptPairs]
  · have hidx : ∀ d ∈ idx, ValidIdx dc.n0 d := by
      intro d hd
      by_contra hc
      have hlen : (nat.map fun τ : ℕ => (τ : ℤ)).length ≠ 0 := by
        simpa using hne
      have : checkRows (nat.map fun τ : ℕ => (τ : ℤ)) idx dc.n0 = .error .indexError := by
        unfold checkRows
        rw [if_neg hlen]
        apply mapM_except_err _ _ _ d hd (npIdx_invalid hc)
        intro b _
        by_cases hb : ValidIdx dc.n0 b
        · exact Or.inr ⟨_, npIdx_valid hb⟩
        · exact Or.inl (npIdx_invalid hb)
      unfold getDisps at h
      rw [this] at h
      cases h
    refine ⟨nat, rfl, hτ, fun _ => hidx, ?_⟩
    rw [getDisps_multi fl giga itemsize ts ss idx limit nat dc hidx hτ] at h
    split_ifs at h
    obtain rfl := Except.ok.inj h
    refine ⟨?_, rfl, rfl⟩
    simp [Function.comp]


theorem getDisps_deltaT {fl : K → K} {giga : K} {itemsize : ℕ} {ts ss : PyNum K} {idx : List ℤ} {sampling : String} {limit : K}
    {iv : List ℤ} {dc : Arr3 K} {o : DispsOut K} (h : getDisps fl giga itemsize ts ss idx sampling limit iv dc = .ok o) :
    o.deltaT = iv.map fun τ => (deltaTOf fl ts ss τ).val := by
  unfold getDisps at h
  cases hr : checkRows iv idx dc.n0 with
  | error e => rw [hr] at h; cases h
  | ok rows =>
  rw [hr] at h
  simp only [bind, Except.bind] at h
  by_cases hm : fl (((iv.map fun τ => intervalBytes itemsize idx.length dc.n1 τ).sum : ℕ) * giga) > limit
  · rw [if_pos hm] at h; cases h
  rw [if_neg hm] at h
  cases hz : iv.zipIdx.mapM (oneInterval fl idx sampling (iv.getLastD 0) dc) with
  | error e => rw [hz] at h; cases h
  | ok z =>
  rw [hz] at h
  obtain rfl := Except.ok.inj h
  rfl

theorem unwrapStep_self (a : V3 K) (L : M3 K) (I : M3 K) (l : Fin 3) : unwrapStep a a L L I l = 0 := by
  have h : ⌊(1 / 2 : K)⌋ = 0 := by rw [Int.floor_eq_iff]; norm_num
  simp only [unwrapStep, sub_self, vm, zero_mul, Finset.sum_const_zero, zero_add, h, Int.cast_zero]

theorem meanOver_zero (l : List ℕ) : meanOver l (fun _ => (0 : K)) = 0 := by
  have : (l.map fun _ => (0 : K)).sum = 0 := by
    induction l with
    | nil => rfl
    | cons a l ih => simp
  rw [meanOver, this, zero_div]

/-- The drift-corrected path of a parser is the path relative to the framework: `p` follows the minimum images from frame to frame. -/
theorem buildParser_dc {E : Num K} {P : Params K} {S : Select K} {st : Frame K} {c0 : List (V3 K)}
    {cs : List (List (V3 K))} {L0 : M3 K} {Ls : List (M3 K)} {r : Parsed K}
    (h : buildParser E P S st (c0 :: c0 :: cs) (L0 :: L0 :: Ls) = .ok r) :
    ∃ coords sel n p, selectAtoms E.trig st.symbols (c0 :: cs) S = .ok (coords, sel) ∧
      coords.length = cs.length + 1 ∧ (L0 :: Ls).length = cs.length + 1 ∧ (∀ c ∈ coords, c.length = n) ∧
      (∀ L ∈ L0 :: Ls, NonSingular L) ∧
      IsPath (cs.length + 1) n (fun j => (L0 :: Ls).getD j 0) (fun j i => (coords.getD j []).getD i 0) p ∧
      r.indices = sel.indices ∧ r.dc.n0 = n ∧ r.dc.n1 = cs.length + 1 ∧ (∀ d ∈ sel.drift.vals, ValidIdx n d) ∧
      (∀ i l, p i 0 l = 0) ∧
      ∀ i j l, j < cs.length + 1 → r.dc.get i j l = relTo (sel.drift.vals.map (atomOf n)) p i j l := by
  obtain ⟨coords', sel, w, disp, r0, hsel, hdisp, hinit, rfl⟩ := buildParser_inv h
  dsimp only
  rw [selectAtoms_dup] at hsel
  cases hsel0 : selectAtoms E.trig st.symbols (c0 :: cs) S with
  | error e => rw [hsel0] at hsel; cases hsel
  | ok cs0 =>
  obtain ⟨coords, sel0⟩ := cs0
  rw [hsel0] at hsel
  simp only [Except.map, Except.ok.injEq, Prod.mk.injEq] at hsel
  obtain ⟨rfl, rfl⟩ := hsel
  obtain ⟨hne, hlen, hll, hdet, hn1, -, hget⟩ := getDisp_inv hdisp
  obtain ⟨hdr, -, -, hidx, -, -⟩ := parserInit_inv hinit
  obtain ⟨d0, d1, dv, dget⟩ := correctDriftSeq_inv hdr
  -- the selected coordinates are not empty
  cases coords with
  | nil => simp at hne
  | cons y ys =>
  simp only [List.head?_cons, Option.toList_some, List.singleton_append] at hne hlen hll hn1 hget
  have hlen' : (y :: ys).length = cs.length + 1 ∧ (L0 :: Ls).length = cs.length + 1 := by
    have hl : (y :: ys).length = (c0 :: cs).length := by
      clear hget hdisp hlen hll hn1 hne h
      unfold selectAtoms at hsel0
      cases hsp : S.specie with
      | some sp =>
        rw [hsp] at hsel0
        dsimp only at hsel0
        cases hg : getIndices st.symbols sp S.framework with
        | error e => rw [hg] at hsel0; cases hsel0
        | ok s =>
          rw [hg] at hsel0
          simp only [bind, Except.bind, Except.ok.injEq, Prod.mk.injEq] at hsel0
          rw [hsel0.1]
      | none =>
        rw [hsp] at hsel0
        dsimp only at hsel0
        cases hi : S.specieIdx with
        | none => rw [hi] at hsel0; cases hsel0
        | flat s =>
          rw [hi] at hsel0
          dsimp only at hsel0
          split_ifs at hsel0
          cases hg : getFramework st.symbols.length s.vals S.framework with
          | error e => rw [hg] at hsel0; cases hsel0
          | ok s =>
            rw [hg] at hsel0
            simp only [bind, Except.bind, Except.ok.injEq, Prod.mk.injEq] at hsel0
            rw [hsel0.1]
        | mols ms =>
          rw [hi] at hsel0
          dsimp only at hsel0
          split_ifs at hsel0
          obtain ⟨-, -, -, -, -, atoms, com, dr, -, hc, -, heq⟩ := getMolecules_inv hsel0
          have hcl := (mapM_except_inv hc).1
          have := congrArg (fun z => z.1.length) heq
          simp only [List.length_zipWith, hcl, min_self] at this
          exact this
    refine ⟨by simpa using hl, ?_⟩
    simp only [List.length_cons] at hll hl ⊢
    omega
  obtain ⟨hlc, hlL⟩ := hlen'
  have hn1' : disp.n1 = cs.length + 1 := by
    rw [hn1]
    simp only [List.length_cons] at hlc ⊢
    omega
  set x : ℕ → ℕ → V3 K := fun j i => ((y :: ys).getD j []).getD i 0 with hx
  set L : ℕ → M3 K := fun j => (L0 :: Ls).getD j 0 with hL
  let step : ℕ → ℕ → V3 K := fun i t => unwrapStep (x t i) (x (t + 1) i) (L t) (L (t + 1)) (invFun (L (t + 1)))
  let p : ℕ → ℕ → V3 K := fun i j l => ∑ t ∈ Finset.range j, step i t l
  have hpath : IsPath (cs.length + 1) disp.n0 L x p := by
    intro i hi
    refine ⟨by funext l; simp [p], ?_⟩
    intro j hj
    have he : (fun l => p i (j + 1) l - p i j l) = step i j := by
      funext l; simp only [p, Finset.sum_range_succ]; ring
    rw [he]
    apply minImage_unwrapStep
    apply hdet
    simp only [hL]
    have : j + 1 < (L0 :: Ls).length := by omega
    rw [List.getD_eq_getElem?_getD, List.getElem?_eq_getElem this, Option.getD_some]
    exact List.mem_cons_of_mem _ (List.getElem_mem _)
  have hdp : ∀ i j l, j < disp.n1 → disp.get i j l = p i j l := by
    intro i j l hj
    rw [hget i j l hj, Finset.sum_range_succ']
    simp only [List.getD_cons_zero, List.getD_cons_succ]
    rw [unwrapStep_self, add_zero]
    simp only [p, step, hx, hL]
    cases ys <;> rfl
  have hdcp : ∀ i j l, j < disp.n1 → r0.dc.get i j l = relTo (sel0.drift.vals.map (atomOf disp.n0)) p i j l := by
    intro i j l hj
    rw [dget, hdp i j l hj]
    simp only [relTo, meanOver]
    congr 2
    congr 1
    apply List.map_congr_left
    intro a _
    exact hdp a j l hj
  refine ⟨y :: ys, sel0, disp.n0, p, rfl, hlc, hlL, ?_, ?_, hpath, hidx, d0, by rw [d1, hn1'], dv, fun i l => by simp [p], ?_⟩
  · intro c hc; exact hlen c (by simp only [List.mem_cons] at hc ⊢; tauto)
  · intro M hM; rw [nonSingular_iff]; exact hdet M (List.mem_cons_of_mem _ hM)
  · intro i j l hj; exact hdcp i j l (by omega)

/-- Observations of a parser that reads the frames `c0 :: cs`, cells `L0 :: Ls`, and duplicates the first. -/
theorem buildParser_windows {E : Num K} {P : Params K} {S : Select K} {st : Frame K} {c0 : List (V3 K)}
    {cs : List (List (V3 K))} {L0 : M3 K} {Ls : List (M3 K)} {r : Parsed K} (hs : P.sampling = "multi-origin")
    (h : buildParser E P S st (c0 :: c0 :: cs) (L0 :: L0 :: Ls) = .ok r) (h1 : ∀ τ ∈ r.intervals, 1 ≤ τ) :
    ∃ coords sel n p, ∃ nat : List ℕ, selectAtoms E.trig st.symbols (c0 :: cs) S = .ok (coords, sel) ∧
      coords.length = cs.length + 1 ∧ (L0 :: Ls).length = cs.length + 1 ∧ (∀ c ∈ coords, c.length = n) ∧
      (∀ L ∈ L0 :: Ls, NonSingular L) ∧
      IsPath (cs.length + 1) n (fun j => (L0 :: Ls).getD j 0) (fun j i => (coords.getD j []).getD i 0) p ∧
      r.indices = sel.indices ∧ r.intervals = nat.map (fun τ : ℕ => (τ : ℤ)) ∧ (∀ τ ∈ nat, 1 ≤ τ ∧ τ ≤ cs.length + 1) ∧
      (∀ d ∈ sel.drift.vals, ValidIdx n d) ∧ (r.intervals ≠ [] → ∀ d ∈ sel.indices, ValidIdx n d) ∧
      List.Forall₂ (FrameWindows (cs.length + 1) (relTo (sel.drift.vals.map (atomOf n)) p) (sel.indices.map (atomOf n)))
        (nat.filter fun τ => decide (2 ≤ disjointWindows sel.indices.length (cs.length + 1) τ)) r.disp3d := by
  obtain ⟨coords, sel, n, p, b1, b2, b3, b4, b5, b6, b7, b8, b9, b10, b11, b12⟩ := buildParser_dc h
  obtain ⟨coords', sel', w', disp', r0, hsel', hdisp', hinit, hr⟩ := buildParser_inv h
  obtain ⟨-, -, hgd, hidx, -, -⟩ := parserInit_inv hinit
  have hsel : sel'.indices = sel.indices := by rw [← b7, hr, ← hidx]
  have hdc : r0.dc = r.dc := by rw [hr]
  have hi0 : r0.intervals = r.intervals := by rw [hr]
  have h30 : r0.disp3d = r.disp3d := by rw [hr]
  rw [hs, hsel, hi0, hdc, h30] at hgd
  obtain ⟨nat, hnat, hτ, hval, -, h3d, -⟩ := getDisps_multi_inv hgd h1
  rw [b9] at hτ
  rw [b8] at hval
  refine ⟨coords, sel, n, p, nat, b1, b2, b3, b4, b5, b6, b7, hnat, hτ, b10, hval, ?_⟩
  dsimp only at h3d
  rw [h3d]
  simp only [keptPairs, List.map_map, b9]
  rw [List.forall₂_map_right_iff]
  apply List.forall₂_same.2
  intro τ hm
  have hb := hτ τ (List.mem_filter.1 hm).1
  refine ⟨by simp [windowArr], by simp only [Function.comp, windowArr, b9]; omega, ?_⟩
  intro s hs'
  rw [List.length_map] at hs'
  simp only [List.getElem_map]
  have hrow : (sel.indices.map (atomOf r.dc.n0)).getD s 0 = atomOf n sel.indices[s] := by
    rw [b8]; simp [List.getD, hs']
  constructor
  · intro k hk hkn l
    simp only [Function.comp, windowArr, b9] at hkn ⊢
    rw [hrow, if_neg (by omega), b12 _ _ _ (by omega), b12 _ _ _ (by omega)]
    rw [show τ + (k - 1) = k - 1 + τ by omega]
  · intro l
    simp only [Function.comp, windowArr, if_true]
    rw [hrow, b12 _ _ _ (by omega)]
    have : relTo (sel.drift.vals.map (atomOf n)) p (atomOf n sel.indices[s]) 0 l = 0 := by
      have e : (fun a => p a 0 l) = fun _ => (0 : K) := by funext a; exact b11 a l
      simp only [relTo, e, meanOver_zero, sub_zero]
      exact b11 _ l
    rw [this, sub_zero]

end Kinisi
