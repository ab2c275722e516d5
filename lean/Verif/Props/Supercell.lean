import Verif.Spec.Supercell
import Verif.Props.CellChoice
import Verif.Props.Analyzer
import Verif.Props.Ngp
import Verif.Props.Relations
import Verif.Lemmas.MsdFl

/-!
# C119: repeating the simulation cell
-/

set_option linter.unusedSectionVars false
set_option linter.unusedVariables false

namespace Kinisi
open Spec
variable {K : Type} [Field K] [LinearOrder K] [IsStrictOrderedRing K] [FloorRing K] {G : Type}

/-! ## Lists of copies -/

theorem superSymbols_length (R : ℕ) (sy : List String) : (superSymbols R sy).length = R * sy.length := by
  simp [superSymbols]

theorem copies_length (R n : ℕ) (l : List ℕ) : (copies R n l).length = R * l.length := by
  simp [copies, List.length_flatMap]

theorem copies_succ (R n : ℕ) (l : List ℕ) : copies (R + 1) n l = copies R n l ++ l.map fun a => R * n + a := by
  simp [copies, List.range_succ, List.flatMap_append]

theorem copies_mem {R n : ℕ} {l : List ℕ} (h : ∀ a ∈ l, a < n) : ∀ b ∈ copies R n l, b < R * n := by
  intro b hb
  obtain ⟨c, hc, hb⟩ := List.mem_flatMap.mp hb
  obtain ⟨a, ha, rfl⟩ := List.mem_map.mp hb
  have := h a ha
  have hc := List.mem_range.mp hc
  calc c * n + a < c * n + n := by omega
    _ = (c + 1) * n := by ring
    _ ≤ R * n := Nat.mul_le_mul_right _ hc

theorem copies_getD (R n : ℕ) (l : List ℕ) {c r : ℕ} (hc : c < R) (hr : r < l.length) :
    (copies R n l).getD (c * l.length + r) 0 = c * n + l.getD r 0 := by
  induction R with
  | zero => omega
  | succ R ih =>
    rw [copies_succ, List.getD_eq_getElem?_getD]
    rcases Nat.lt_succ_iff_lt_or_eq.mp hc with h | rfl
    · have : c * l.length + r < (copies R n l).length := by
        rw [copies_length]
        calc c * l.length + r < c * l.length + l.length := by omega
          _ = (c + 1) * l.length := by ring
          _ ≤ R * l.length := Nat.mul_le_mul_right _ h
      rw [List.getElem?_append_left this, ← List.getD_eq_getElem?_getD, ih h]
    · rw [List.getElem?_append_right (by rw [copies_length]; omega), copies_length]
      simp [List.getD_eq_getElem?_getD, hr]

theorem copies_sum {R n : ℕ} {l : List ℕ} {f f' : ℕ → K} (h : ∀ c < R, ∀ a ∈ l, f' (c * n + a) = f a) :
    ((copies R n l).map f').sum = R * (l.map f).sum := by
  induction R with
  | zero => simp [copies]
  | succ R ih =>
    rw [copies_succ, List.map_append, List.sum_append, ih fun c hc => h c (by omega), List.map_map]
    have : l.map (f' ∘ fun a => R * n + a) = l.map f := List.map_congr_left fun a ha => h R (by omega) a ha
    rw [this]
    push_cast
    ring

theorem spots_copies (p : String → Bool) (R : ℕ) (sy : List String) :
    ((List.range (superSymbols R sy).length).filter fun k => p ((superSymbols R sy).getD k "")) =
      copies R sy.length ((List.range sy.length).filter fun k => p (sy.getD k "")) := by
  induction R with
  | zero => simp [superSymbols, copies]
  | succ R ih =>
    have hs : superSymbols (R + 1) sy = superSymbols R sy ++ sy := by
      simp [superSymbols, List.replicate_succ']
    rw [copies_succ, ← ih, hs, List.length_append, List.range_add, List.filter_append]
    congr 1
    · apply List.filter_congr
      intro k hk
      rw [List.getD_eq_getElem?_getD, List.getElem?_append_left (by simpa using hk), ← List.getD_eq_getElem?_getD]
    · rw [List.filter_map, superSymbols_length]
      congr 1
      apply List.filter_congr
      intro k hk
      simp only [Function.comp]
      rw [List.getD_eq_getElem?_getD, List.getElem?_append_right (by rw [superSymbols_length]; omega), superSymbols_length, Nat.add_sub_cancel_left,
        ← List.getD_eq_getElem?_getD]

theorem chosen_copies (R : ℕ) (sy sp : List String) : chosen (superSymbols R sy) sp = copies R sy.length (chosen sy sp) :=
  spots_copies (fun s => sp.contains s) R sy

theorem others_copies (R : ℕ) (sy sp : List String) : others (superSymbols R sy) sp = copies R sy.length (others sy sp) :=
  spots_copies (fun s => !sp.contains s) R sy

/-! ## The parser -/

theorem drift_copied {R n : ℕ} (hR : 0 < R) {a a' dc dc' : Arr3 K} (h : Copied R a a') (hn : a.n0 = n) {fw : List ℕ} (hfw : ∀ k ∈ fw, k < n) {t t' : Bool}
    (h1 : correctDriftSeq ⟨t, fw.map fun k : ℕ => (k : ℤ)⟩ a = .ok dc)
    (h2 : correctDriftSeq ⟨t', (copies R n fw).map fun k : ℕ => (k : ℤ)⟩ a' = .ok dc') : Copied R dc dc' := by
  subst hn
  have e1 : ∀ {a dc : Arr3 K} {l : List ℕ} {t : Bool}, (∀ k ∈ l, k < a.n0) → correctDriftSeq ⟨t, l.map fun k : ℕ => (k : ℤ)⟩ a = .ok dc →
      dc.n0 = a.n0 ∧ dc.n1 = a.n1 ∧ ∀ i j, dc.get i j = fun x => a.get i j x - if 0 < l.length then (l.map fun r => a.get r j x).sum / l.length else 0 := by
    intro a dc l t hl h
    unfold correctDriftSeq correctDrift at h
    split_ifs at h with c1 c2
    · rw [mapM_natIdx hl] at h
      obtain rfl := Except.ok.inj h
      refine ⟨rfl, rfl, fun i j => ?_⟩
      funext x
      rw [if_pos (by simpa using c2)]
    · obtain rfl := Except.ok.inj h
      refine ⟨rfl, rfl, fun i j => ?_⟩
      funext x
      rw [if_neg (by simpa using c2), sub_zero]
  obtain ⟨p0, p1, pg⟩ := e1 hfw h1
  obtain ⟨q0, q1, qg⟩ := e1 (fun k hk => by rw [h.n0]; exact copies_mem hfw k hk) h2
  refine ⟨by rw [q0, p0, h.n0], by rw [q1, p1, h.n1], fun c hc r hr k hk => ?_⟩
  rw [p0] at hr ⊢
  rw [p1] at hk
  rw [pg, qg]
  funext x
  rw [h.get c hc r hr k hk, copies_length]
  have hs : ((copies R a.n0 fw).map fun r => a'.get r k x).sum = R * (fw.map fun r => a.get r k x).sum :=
    copies_sum fun c hc b hb => by rw [h.get c hc b (hfw b hb) k hk]
  rw [hs]
  have hRK : (R : K) ≠ 0 := by exact_mod_cast hR.ne'
  congr 1
  by_cases hf : 0 < fw.length
  · rw [if_pos (Nat.mul_pos hR hf), if_pos hf]
    push_cast
    rw [mul_div_mul_left _ _ hRK]
  · rw [if_neg hf, if_neg (by rw [Nat.le_zero.mp (not_lt.mp hf)]; simp)]

/-- Both intervals are left out, or both are kept and the arrays are copies. -/
def PairCopied (R N : ℕ) (x x' : Option (Arr3 K × K)) : Prop :=
  x = none ∧ x' = none ∨ ∃ d no d' no', x = some (d, no) ∧ x' = some (d', no') ∧ Copied R d d' ∧ d.n0 = N ∧ 0 < d.n1 ∧ no' = R * no

theorem interval_copied {R n : ℕ} (hR : 0 < R) {dc dc' : Arr3 K} (h : Copied R dc dc') (hn : dc.n0 = n) {atoms : List ℕ} (ha : ∀ k ∈ atoms, k < n)
    (h2 : 2 ≤ atoms.length) {sampling : String} {last : ℤ} {p : ℤ × ℕ} {x x' : Option (Arr3 K × K)}
    (h1 : oneInterval id (atoms.map fun k : ℕ => (k : ℤ)) sampling last dc p = .ok x)
    (h1' : oneInterval id ((copies R n atoms).map fun k : ℕ => (k : ℤ)) sampling last dc' p = .ok x') : PairCopied R atoms.length x x' := by
  subst hn
  unfold oneInterval at h1 h1'
  have ha' : ∀ k ∈ copies R dc.n0 atoms, k < dc'.n0 := by rw [h.n0]; exact copies_mem ha
  rw [mapM_natIdx ha] at h1
  rw [mapM_natIdx ha'] at h1'
  simp only [bind, Except.bind] at h1 h1'
  have hrow : ∀ c < R, ∀ r < atoms.length, ∀ k < dc.n1,
      dc'.get ((copies R dc.n0 atoms).getD (c * atoms.length + r) 0) k = dc.get (atoms.getD r 0) k := by
    intro c hc r hr k hk
    rw [copies_getD R dc.n0 atoms hc hr]
    refine h.get c hc _ (ha _ ?_) k hk
    rw [List.getD_eq_getElem?_getD, List.getElem?_eq_getElem hr]
    exact List.getElem_mem _
  have fin : ∀ d d' : Arr3 K, Copied R d d' → d.n0 = atoms.length →
      ∀ {x x'}, (if p.1 = 0 then (.error .valueError : PyM (Option (Arr3 K × K))) else if d.n0 * strideCount d.n1 p.1 ≤ 1 then .ok none
        else .ok (some (d, id ((((d.n0 : ℤ) * last : ℤ) : K) / (p.1 : K))))) = .ok x →
      (if p.1 = 0 then (.error .valueError : PyM (Option (Arr3 K × K))) else if d'.n0 * strideCount d'.n1 p.1 ≤ 1 then .ok none
        else .ok (some (d', id ((((d'.n0 : ℤ) * last : ℤ) : K) / (p.1 : K))))) = .ok x' → PairCopied R atoms.length x x' := by
    intro d d' hd hN x x' e e'
    rw [hd.n0, hd.n1, hN] at e'
    rw [hN] at e
    by_cases hz : p.1 = 0
    · rw [if_pos hz] at e; cases e
    rw [if_neg hz] at e e'
    by_cases hs : strideCount d.n1 p.1 = 0
    · rw [hs, Nat.mul_zero, if_pos (by omega)] at e e'
      exact .inl ⟨(Except.ok.inj e).symm, (Except.ok.inj e').symm⟩
    · have hs1 : 1 ≤ strideCount d.n1 p.1 := by omega
      have g1 : ¬ atoms.length * strideCount d.n1 p.1 ≤ 1 := by
        have := Nat.mul_le_mul h2 hs1
        omega
      have g2 : ¬ R * atoms.length * strideCount d.n1 p.1 ≤ 1 := by
        have := Nat.mul_le_mul hR (Nat.mul_le_mul h2 hs1)
        rw [Nat.mul_assoc]
        omega
      rw [if_neg g1] at e
      rw [if_neg g2] at e'
      refine .inr ⟨d, _, d', _, (Except.ok.inj e).symm, (Except.ok.inj e').symm, hd, hN, ?_, ?_⟩
      · by_contra hd0
        have : d.n1 = 0 := by omega
        apply hs
        unfold strideCount
        rw [this]
        have := Int.natAbs_pos.mpr hz
        exact Nat.div_eq_of_lt (by omega)
      · simp only [id]
        push_cast
        ring
  by_cases c1 : sampling = "single-origin"
  · rw [if_pos c1] at h1 h1'
    refine fin _ _ ?_ rfl h1 h1'
    refine ⟨by simp [singleOrigin, copies_length], by simp [singleOrigin, h.n1], fun c hc r hr k hk => ?_⟩
    simp only [singleOrigin] at hr hk ⊢
    refine hrow c hc r hr _ ?_
    unfold sliceBound at hk
    split_ifs at hk <;> omega
  rw [if_neg c1] at h1 h1'
  by_cases c2 : sampling = "multi-origin"
  swap
  · rw [if_neg c2] at h1
    cases h1
  · rw [if_pos c2] at h1 h1'
    cases hm : multiOrigin dc atoms p.1 with
    | error e => rw [hm] at h1; cases h1
    | ok d =>
    cases hm' : multiOrigin dc' (copies R dc.n0 atoms) p.1 with
    | error e => rw [hm'] at h1'; cases h1'
    | ok d' =>
    rw [hm] at h1
    rw [hm'] at h1'
    unfold multiOrigin at hm hm'
    rw [h.n1] at hm'
    cases hf : npIdx dc.n1 (p.1 - 1) with
    | error e => rw [hf] at hm; cases hm
    | ok first =>
    have hlt := npIdx_lt hf
    rw [hf] at hm hm'
    simp only [bind, Except.bind] at hm hm'
    split_ifs at hm hm' with hne
    obtain rfl := Except.ok.inj hm
    obtain rfl := Except.ok.inj hm'
    refine fin _ _ ?_ rfl h1 h1'
    refine ⟨by simp [copies_length], rfl, fun c hc r hr k hk => ?_⟩
    dsimp only at hr hk ⊢
    by_cases hk0 : k = 0
    · rw [if_pos hk0, if_pos hk0, hrow c hc r hr _ hlt]
    · rw [if_neg hk0, if_neg hk0]
      funext l
      rw [hrow c hc r hr _ (by omega), hrow c hc r hr _ (by omega)]

theorem mapM_related {α β γ : Type} {p : α → PyM β} {q : α → PyM γ} {T : β → γ → Prop} (h : ∀ a x y, p a = .ok x → q a = .ok y → T x y) :
    ∀ {l : List α} {xs : List β} {ys : List γ}, l.mapM p = .ok xs → l.mapM q = .ok ys → List.Forall₂ T xs ys := by
  intro l
  induction l with
  | nil =>
    intro xs ys h1 h2
    cases h1
    cases h2
    exact .nil
  | cons a l ih =>
    intro xs ys h1 h2
    rw [List.mapM_cons] at h1 h2
    cases e1 : p a with
    | error e => rw [e1] at h1; cases h1
    | ok x =>
    cases e2 : q a with
    | error e => rw [e2] at h2; cases h2
    | ok y =>
    rw [e1] at h1
    rw [e2] at h2
    cases e3 : l.mapM p with
    | error e => simp only [bind, Except.bind, e3] at h1; cases h1
    | ok xs' =>
    cases e4 : l.mapM q with
    | error e => simp only [bind, Except.bind, e4] at h2; cases h2
    | ok ys' =>
    simp only [bind, Except.bind, e3] at h1
    simp only [bind, Except.bind, e4] at h2
    cases h1
    cases h2
    exact .cons (h a x y e1 e2) (ih e3 e4)

/-- What the analyzers get from `R` copies of a cell. -/
structure BaseCopied (R N : ℕ) (B B' : Base K) : Prop where
  deltaT : B'.deltaT = B.deltaT
  disp : List.Forall₂ (Copied R) B.disp3d B'.disp3d
  nO : B'.nO = B.nO.map fun x : K => (R : K) * x
  atoms : ∀ a ∈ B.disp3d, a.n0 = N ∧ 0 < a.n1

theorem init_copied {R n : ℕ} (hR : 0 < R) {E : Num K} (hE : E.fl = id) {P : Params K} {w w' : Bool} {a a' : Arr3 K} (h : Copied R a a') (hn : a.n0 = n)
    {atoms fw : List ℕ} (ha : ∀ k ∈ atoms, k < n) (hfw : ∀ k ∈ fw, k < n) (h2 : 2 ≤ atoms.length) {sel sel' : Selection}
    (s1 : sel.indices = atoms.map fun k : ℕ => (k : ℤ)) (s2 : sel.drift.vals = fw.map fun k : ℕ => (k : ℤ))
    (s1' : sel'.indices = (copies R n atoms).map fun k : ℕ => (k : ℤ)) (s2' : sel'.drift.vals = (copies R n fw).map fun k : ℕ => (k : ℤ))
    {r r' : Parsed K} (hr : parserInit E P w a sel = .ok r) (hr' : parserInit E P w' a' sel' = .ok r') :
    BaseCopied R atoms.length (baseOf r) (baseOf r') ∧ r'.deltaInt = r.deltaInt := by
  unfold parserInit at hr hr'
  obtain ⟨idx, ⟨t, dv⟩⟩ := sel
  obtain ⟨idx', ⟨t', dv'⟩⟩ := sel'
  dsimp only at s1 s2 s1' s2' hr hr'
  subst s1 s2 s1' s2'
  cases d1 : correctDriftSeq ⟨t, fw.map fun k : ℕ => (k : ℤ)⟩ a with
  | error e => rw [d1] at hr; cases hr
  | ok dc =>
  cases d2 : correctDriftSeq ⟨t', (copies R n fw).map fun k : ℕ => (k : ℤ)⟩ a' with
  | error e => rw [d2] at hr'; cases hr'
  | ok dc' =>
  have hdc := drift_copied hR h hn hfw d1 d2
  have hdn : dc.n0 = n := by
    unfold correctDriftSeq correctDrift at d1
    split_ifs at d1
    · dsimp only at d1
      rw [mapM_natIdx (by rw [hn]; exact hfw)] at d1
      obtain rfl := Except.ok.inj d1
      exact hn
    · obtain rfl := Except.ok.inj d1
      exact hn
  rw [d1] at hr
  rw [d2] at hr'
  simp only [bind, Except.bind] at hr hr'
  rw [hdc.n1] at hr'
  cases ht : initTimeIntervals E.fl E.geo dc.n1 P.timeStep P.stepSkip P.minDt P.maxDt P.nSteps P.spacing with
  | error e => rw [ht] at hr; cases hr
  | ok ti =>
  rw [ht] at hr hr'
  dsimp only at hr hr'
  generalize E.fl (1 / 10 ^ 9) = giga at hr hr'
  rw [hE] at hr hr'
  unfold getDisps at hr hr'
  simp only [bind, Except.bind] at hr hr'
  cases k1 : checkRows ti (atoms.map fun k : ℕ => (k : ℤ)) dc.n0 with
  | error e => rw [k1] at hr; cases hr
  | ok _ =>
  cases k2 : checkRows ti ((copies R n atoms).map fun k : ℕ => (k : ℤ)) dc'.n0 with
  | error e => rw [k2] at hr'; cases hr'
  | ok _ =>
  rw [k1] at hr
  rw [k2] at hr'
  dsimp only at hr hr'
  split_ifs at hr with m1
  split_ifs at hr' with m2
  cases o1 : ti.zipIdx.mapM (oneInterval id (atoms.map fun k : ℕ => (k : ℤ)) P.sampling (ti.getLastD 0) dc) with
  | error e => rw [o1] at hr; cases hr
  | ok xs =>
  cases o2 : ti.zipIdx.mapM (oneInterval id ((copies R n atoms).map fun k : ℕ => (k : ℤ)) P.sampling (ti.getLastD 0) dc') with
  | error e => rw [o2] at hr'; cases hr'
  | ok xs' =>
  rw [o1] at hr
  rw [o2] at hr'
  have hx : List.Forall₂ (PairCopied R atoms.length) xs xs' :=
    mapM_related (fun p x y e1 e2 => interval_copied hR hdc hdn ha h2 e1 e2) o1 o2
  obtain rfl := Except.ok.inj hr
  obtain rfl := Except.ok.inj hr'
  have key : List.Forall₂ (Copied R) ((xs.filterMap id).map Prod.fst) ((xs'.filterMap id).map Prod.fst) ∧
      (xs'.filterMap id).map Prod.snd = ((xs.filterMap id).map Prod.snd).map (fun x => (R : K) * x) ∧
      ∀ a ∈ (xs.filterMap id).map Prod.fst, a.n0 = atoms.length ∧ 0 < a.n1 := by
    clear o1 o2 hr hr'
    induction hx with
    | nil => simp
    | cons h _ ih =>
      rcases h with ⟨rfl, rfl⟩ | ⟨d, no, d', no', rfl, rfl, hd, hN, h1, rfl⟩
      · simpa using ih
      · obtain ⟨i1, i2, i3⟩ := ih
        simp only [List.filterMap_cons, id, List.map_cons]
        refine ⟨.cons hd i1, congrArg (_ :: ·) i2, fun a ha => ?_⟩
        rcases List.mem_cons.mp ha with rfl | ha
        · exact ⟨hN, h1⟩
        · exact i3 a ha
  exact ⟨⟨rfl, key.1, key.2.1, key.2.2⟩, rfl⟩

theorem frames_read {F : ℕ} (hF : 0 < F) (sy : List String) (C : ℕ → M3 K) (V : ℕ → K) (s : ℕ → ℕ → V3 K) :
    structureCoordsLatt (cellFrames F sy C V s) =
      .ok (⟨sy, (List.range sy.length).map fun i => s i 0, C 0, V 0⟩, frames (F + 1) sy.length fun j i => s i (j - 1), cells (F + 1) fun j => C (j - 1)) := by
  obtain ⟨m, rfl⟩ : ∃ m, F = m + 1 := ⟨F - 1, by omega⟩
  unfold structureCoordsLatt cellFrames frames cells
  rw [List.range_succ_eq_map (n := m + 1), List.range_succ_eq_map (n := m)]
  simp [Function.comp_def]

theorem build_copied {R : ℕ} (hR : 0 < R) {E : Num K} (hE : E.fl = id) {P : Params K} {S : Select K} {sp : List String} (hS : S.specie = some sp)
    (hSf : S.framework = none) {sy : List String} (h2 : 2 ≤ (chosen sy sp).length) {F : ℕ} (hF : 0 < F) {C C' : ℕ → M3 K}
    (hC : ∀ j < F, NonSingular (C j)) (hC' : ∀ j < F, NonSingular (C' j)) {V V' : ℕ → K} {s s' x : ℕ → ℕ → V3 K} {off : ℕ → V3 K}
    (hs : StoredIn F sy.length C s x) (hs' : StoredIn F (superSymbols R sy).length C' s' (superMotion sy.length off x)) {r r' : Parsed K}
    (hr : (structureCoordsLatt (cellFrames F sy C V s) >>= fun p => buildParser E P S p.1 p.2.1 p.2.2) = .ok r)
    (hr' : (structureCoordsLatt (cellFrames F (superSymbols R sy) C' V' s') >>= fun p => buildParser E P S p.1 p.2.1 p.2.2) = .ok r') :
    BaseCopied R (chosen sy sp).length (baseOf r) (baseOf r') ∧ r'.deltaInt = r.deltaInt := by
  obtain ⟨w, a, h, a0, a1, ag⟩ := getDisp_stored hC hs hF
  obtain ⟨w', a', h', a0', a1', ag'⟩ := getDisp_stored hC' hs' hF
  have hcop : Copied R a a' := by
    refine ⟨by rw [a0', a0, superSymbols_length], by rw [a1', a1], fun c hc i hi k hk => ?_⟩
    rw [a0] at hi ⊢
    rw [a1] at hk
    have hlt : c * sy.length + i < (superSymbols R sy).length := by
      rw [superSymbols_length]
      calc c * sy.length + i < c * sy.length + sy.length := by omega
        _ = (c + 1) * sy.length := by ring
        _ ≤ R * sy.length := Nat.mul_le_mul_right _ hc
    funext l
    have hm : (c * sy.length + i) % sy.length = i := by
      rw [Nat.add_comm, Nat.add_mul_mod_self_right, Nat.mod_eq_of_lt hi]
    rw [ag' _ hlt k hk l, ag i hi k hk l]
    simp only [superMotion, hm]
    ring
  rw [frames_read hF] at hr hr'
  simp only [bind, Except.bind, buildParser] at hr hr'
  cases e1 : selectAtoms E.trig sy (frames (F + 1) sy.length fun j i => s i (j - 1)) S with
  | error e => rw [e1] at hr; cases hr
  | ok y =>
  cases e2 : selectAtoms E.trig (superSymbols R sy) (frames (F + 1) (superSymbols R sy).length fun j i => s' i (j - 1)) S with
  | error e => rw [e2] at hr'; cases hr'
  | ok y' =>
  obtain ⟨co, sel⟩ := y
  obtain ⟨co', sel'⟩ := y'
  obtain ⟨rfl, i1, i2⟩ := picks_select (.species sp hS hSf) e1
  obtain ⟨rfl, i1', i2'⟩ := picks_select (.species sp hS hSf) e2
  rw [chosen_copies] at i1'
  rw [others_copies] at i2'
  rw [e1] at hr
  rw [e2] at hr'
  simp only [h, h'] at hr hr'
  cases p1 : parserInit E P w a sel with
  | error e => rw [p1] at hr; cases hr
  | ok z =>
  cases p2 : parserInit E P w' a' sel' with
  | error e => rw [p2] at hr'; cases hr'
  | ok z' =>
  rw [p1] at hr
  rw [p2] at hr'
  obtain rfl := Except.ok.inj hr
  obtain rfl := Except.ok.inj hr'
  obtain ⟨⟨b1, b2, b3, b4⟩, hb⟩ := init_copied hR hE hcop a0 (fun k hk => mem_chosen hk) (fun k hk => mem_others hk) h2 i1 i2 i1' i2' p1 p2
  exact ⟨⟨b1, b2, b3, b4⟩, hb⟩

/-- A trajectory and that of `R` copies of its cell, read from files of the same format, every `k`-th frame. -/
def ReadSuper (R : ℕ) (E : Num K) (P : Params K) (S : Select K) (k F : ℕ) (sy : List String) (C C' : ℕ → M3 K) (V V' : ℕ → K) (s s' : ℕ → ℕ → V3 K)
    (base base' : PyM (Base K)) : Prop :=
  base = fromAse E P S k none (.one (cellFrames F sy C V s)) ∧ base' = fromAse E P S k none (.one (cellFrames F (superSymbols R sy) C' V' s')) ∨
  base = fromPymatgen E P S k none (.one (cellFrames F sy C V s)) ∧ base' = fromPymatgen E P S k none (.one (cellFrames F (superSymbols R sy) C' V' s')) ∨
  base = fromUniverse E P S 1 k none (.one (cellUniverse F sy C V s)) ∧
    base' = fromUniverse E P S 1 k none (.one (cellUniverse F (superSymbols R sy) C' V' s'))

theorem base_copied {R : ℕ} (hR : 0 < R) {E : Num K} (hE : E.fl = id) {P : Params K} {S : Select K} {sp : List String} (hS : S.specie = some sp)
    (hSf : S.framework = none) {sy : List String} (h2 : 2 ≤ (chosen sy sp).length) {k F : ℕ} (hk : 0 < k) (hF : 0 < F) {C C' : ℕ → M3 K}
    (hC : ∀ j, k * j < F → NonSingular (C (k * j))) (hC' : ∀ j, k * j < F → NonSingular (C' (k * j))) {V V' : ℕ → K} {s s' x : ℕ → ℕ → V3 K} {off : ℕ → V3 K}
    (hs : StoredIn ((F + k - 1) / k) sy.length (fun j => C (k * j)) (fun i j => s i (k * j)) (fun i j => x i (k * j)))
    (hs' : StoredIn ((F + k - 1) / k) (superSymbols R sy).length (fun j => C' (k * j)) (fun i j => s' i (k * j))
      (fun i j => superMotion sy.length off x i (k * j))) {base base' : PyM (Base K)}
    (hb : ReadSuper R E P S k F sy C C' V V' s s' base base') {B B' : Base K} (hB : base = .ok B) (hB' : base' = .ok B') :
    BaseCopied R (chosen sy sp).length B B' := by
  have hF' : 0 < (F + k - 1) / k := Nat.div_pos (by omega) hk
  have hlt : ∀ j < (F + k - 1) / k, k * j < F := by
    intro j hj
    have h3 : (j + 1) * k ≤ F + k - 1 := (Nat.le_div_iff_mul_le hk).mp hj
    have h4 : (j + 1) * k = k * j + k := by ring
    omega
  have main := fun (P : Params K) (r r' : Parsed K) => build_copied hR hE (P := P) hS hSf h2 hF' (C := fun j => C (k * j)) (C' := fun j => C' (k * j))
    (fun j hj => hC j (hlt j hj)) (fun j hj => hC' j (hlt j hj)) (V := fun j => V (k * j)) (V' := fun j => V' (k * j)) (off := off) hs hs' (r := r) (r' := r')
  rcases hb with ⟨rfl, rfl⟩ | ⟨rfl, rfl⟩ | ⟨rfl, rfl⟩
  · simp only [fromAse, analyzerFrom, Traj.asOne, aseParser, thin_frames hk, bind, Except.bind] at hB hB' main
    split at hB
    · cases hB
    rename_i r hr
    split at hB'
    · cases hB'
    rename_i r' hr'
    cases hB
    cases hB'
    exact (main P r r' hr hr').1
  · simp only [fromPymatgen, analyzerFrom, Traj.asOne, pymatgenParser, thin_frames hk, bind, Except.bind, frames_read hF'] at hB hB' main
    generalize P.stepSkip.mul E.fl (.int (k : ℤ)) = ss at hB hB'
    split at hB
    · cases hB
    rename_i r hr
    split at hB'
    · cases hB'
    rename_i r' hr'
    cases hB
    cases hB'
    split at hr
    · cases hr
    rename_i z hz
    split at hr'
    · cases hr'
    rename_i z' hz'
    obtain ⟨⟨b1, b2, b3, b4⟩, hi⟩ := main { P with stepSkip := ss } z z' hz hz'
    split_ifs at hr hr' with g1 g2
    cases hr
    cases hr'
    exact ⟨congrArg (List.map _) b1, b2, b3, b4⟩
  · simp only [fromUniverse, analyzerFrom, Traj.asOne, mdaParser, thin_universe hk, bind, Except.bind, ne_eq, not_true_eq_false, decide_false, Bool.false_and,
      Bool.false_eq_true, if_false] at hB hB'
    have u1 := universe_reads (F := (F + k - 1) / k) (sy := sy) (C := fun j => C (k * j)) (fun j hj => hC j (hlt j hj)) (V := fun j => V (k * j)) (s := fun i j => s i (k * j))
    have u2 := universe_reads (F := (F + k - 1) / k) (sy := superSymbols R sy) (C := fun j => C' (k * j)) (fun j hj => hC' j (hlt j hj)) (V := fun j => V' (k * j))
      (s := fun i j => s' i (k * j))
    rw [show (cellUniverse F sy C V s).1 = sy from rfl, u1] at hB
    rw [show (cellUniverse F (superSymbols R sy) C' V' s').1 = superSymbols R sy from rfl, u2] at hB'
    dsimp only at hB hB'
    generalize P.stepSkip.mul E.fl (.int (k : ℤ)) = ss at hB hB'
    simp only [bind, Except.bind] at main
    split at hB
    · cases hB
    rename_i r hr
    split at hB'
    · cases hB'
    rename_i r' hr'
    cases hB
    cases hB'
    exact (main { P with stepSkip := ss } r r' hr hr').1

/-! ## The observables -/

theorem sum_copied {R : ℕ} {a a' : Arr3 K} (h : Copied R a a') (φ : V3 K → K) :
    ∑ p ∈ pairs a', φ (a'.get p.1 p.2) = R * ∑ p ∈ pairs a, φ (a.get p.1 p.2) := by
  unfold pairs
  rw [Finset.sum_product, Finset.sum_product, h.n0, h.n1, sum_blocks]
  have : ∀ c ∈ Finset.range R, ∑ r ∈ Finset.range a.n0, ∑ k ∈ Finset.range a.n1, φ (a'.get (c * a.n0 + r) k) =
      ∑ r ∈ Finset.range a.n0, ∑ k ∈ Finset.range a.n1, φ (a.get r k) := by
    intro c hc
    refine Finset.sum_congr rfl fun r hr => Finset.sum_congr rfl fun k hk => ?_
    rw [h.get c (Finset.mem_range.mp hc) r (Finset.mem_range.mp hr) k (Finset.mem_range.mp hk)]
  dsimp only
  rw [Finset.sum_congr rfl this, Finset.sum_const, Finset.card_range, nsmul_eq_mul]

theorem card_copied {R : ℕ} {a a' : Arr3 K} (h : Copied R a a') : ((pairs a').card : K) = R * ((pairs a).card : K) := by
  have := sum_copied h fun _ => 1
  simpa using this

theorem mean_copied {R : ℕ} (hR : 0 < R) {a a' : Arr3 K} (h : Copied R a a') (φ : V3 K → K) :
    meanOn (pairs a') (fun p => φ (a'.get p.1 p.2)) = meanOn (pairs a) fun p => φ (a.get p.1 p.2) := by
  have hRK : (R : K) ≠ 0 := by exact_mod_cast hR.ne'
  unfold meanOn
  rw [sum_copied h, card_copied h, mul_div_mul_left _ _ hRK]

theorem msd_mean (A : Finset (Fin 3)) (a : Arr3 K) : msd A a = meanOn (pairs a) fun p => ∑ x ∈ A, a.get p.1 p.2 x ^ 2 := by
  unfold msd meanOn pairs
  rw [Finset.sum_product, Finset.card_product, Finset.card_range, Finset.card_range, Nat.cast_mul]

theorem msd_copied {R : ℕ} (hR : 0 < R) {a a' : Arr3 K} (h : Copied R a a') (A : Finset (Fin 3)) : msd A a' = msd A a := by
  rw [msd_mean, msd_mean]
  exact mean_copied hR h fun v => ∑ x ∈ A, v x ^ 2

theorem mscd_copied {R : ℕ} {a a' : Arr3 K} (h : Copied R a a') (A : Finset (Fin 3)) {q q' : ℕ → K}
    (hq : ∀ c < R, ∀ r < a.n0, q' (c * a.n0 + r) = q r) : mscd A q' a' = (R : K) ^ 2 * mscd A q a := by
  unfold mscd
  rw [h.n0, h.n1, ← mul_div_assoc, Finset.mul_sum]
  congr 1
  refine Finset.sum_congr rfl fun k hk => ?_
  rw [Finset.mul_sum]
  refine Finset.sum_congr rfl fun x _ => ?_
  rw [sum_blocks]
  have : ∀ c ∈ Finset.range R, ∑ r ∈ Finset.range a.n0, q' (c * a.n0 + r) * a'.get (c * a.n0 + r) k x = ∑ r ∈ Finset.range a.n0, q r * a.get r k x := by
    intro c hc
    refine Finset.sum_congr rfl fun r hr => ?_
    rw [h.get c (Finset.mem_range.mp hc) r (Finset.mem_range.mp hr) k (Finset.mem_range.mp hk), hq c (Finset.mem_range.mp hc) r (Finset.mem_range.mp hr)]
  rw [Finset.sum_congr rfl this, Finset.sum_const, Finset.card_range, nsmul_eq_mul, mul_pow]

theorem mstd_copied {R : ℕ} {a a' : Arr3 K} (h : Copied R a a') (A : Finset (Fin 3)) : mstd A a' = (R : K) ^ 2 * mstd A a := by
  have := mscd_copied h A (q := fun _ => (1 : K)) (q' := fun _ => 1) fun _ _ _ _ => rfl
  simpa [mscd, mstd] using this

/-- The entry of `ngp` that an array has. -/
def ngpEntry (A : Finset (Fin 3)) (a : Arr3 K) : Option K :=
  if ∀ p ∈ pairs a, sqLen A a p = 0 then none else some (ngp (pairs a) (sqLen A a))

theorem ngp_copied {R : ℕ} (hR : 0 < R) {a a' : Arr3 K} (h : Copied R a a') (A : Finset (Fin 3)) : ngpEntry A a' = ngpEntry A a := by
  have hz : (∀ p ∈ pairs a', sqLen A a' p = 0) ↔ ∀ p ∈ pairs a, sqLen A a p = 0 := by
    have e : ∀ b : Arr3 K, (∀ p ∈ pairs b, sqLen A b p = 0) ↔ ∑ p ∈ pairs b, ∑ x ∈ A, b.get p.1 p.2 x ^ 2 = 0 := by
      intro b
      rw [Finset.sum_eq_zero_iff_of_nonneg fun p _ => by positivity]
      rfl
    rw [e, e, sum_copied h fun v => ∑ x ∈ A, v x ^ 2, mul_eq_zero, or_iff_right (by exact_mod_cast hR.ne')]
  have hv : ngp (pairs a') (sqLen A a') = ngp (pairs a) (sqLen A a) := by
    have e1 := mean_copied hR h fun v => ∑ x ∈ A, v x ^ 2
    have e2 := mean_copied hR h fun v => (∑ x ∈ A, v x ^ 2) ^ 2
    unfold ngp
    change 3 * meanOn (pairs a') (fun p => (∑ x ∈ A, a'.get p.1 p.2 x ^ 2) ^ 2) / (5 * meanOn (pairs a') (fun p => ∑ x ∈ A, a'.get p.1 p.2 x ^ 2) ^ 2) - 1 = _
    rw [e1, e2]
    rfl
  unfold ngpEntry
  simp only [hz, hv]

theorem var_copied {R : ℕ} (hR : 0 < R) {a a' : Arr3 K} (h : Copied R a a') (h2 : 2 ≤ (pairs a).card) (A : Finset (Fin 3)) :
    varOn (pairs a') (sqLen A a') * (R * ((pairs a).card : K) - 1) = R * (varOn (pairs a) (sqLen A a) * ((pairs a).card - 1)) := by
  have e1 := mean_copied hR h fun v => ∑ x ∈ A, v x ^ 2
  have hm : meanOn (pairs a') (sqLen A a') = meanOn (pairs a) (sqLen A a) := e1
  have e2 := sum_copied h fun v => (∑ x ∈ A, v x ^ 2 - meanOn (pairs a) (sqLen A a)) ^ 2
  have hc : (2 : K) ≤ ((pairs a).card : K) := by exact_mod_cast h2
  have hR1 : (1 : K) ≤ R := by exact_mod_cast hR
  unfold varOn
  rw [hm, card_copied h, div_mul_cancel₀ _ (by nlinarith), div_mul_cancel₀ _ (by linarith)]
  exact e2

theorem forall₂_map {α β γ : Type} {T : α → β → Prop} {f : α → γ} {f' : β → γ} {l : List α} {l' : List β} (h : List.Forall₂ T l l')
    (hf : ∀ a b, a ∈ l → T a b → f a = f' b) : l.map f = l'.map f' := by
  induction h with
  | nil => rfl
  | cons hab _ ih =>
    rw [List.map_cons, List.map_cons, hf _ _ (by simp) hab, ih fun a b ha hT => hf a b (by simp [ha]) hT]

/-- All columns of the MSD when no interval is skipped. -/
theorem msd_columns (sq : K → K) (o : Oracle K G) (opt : BootOpts K) (hblock : opt.block = false) (g g' : G) (deltaT : List K)
    (disp : List (Arr3 K)) (nO : List K) (sub : ℤ) (d : String) (b : Boot K) (h2 : ∀ a ∈ disp, 2 ≤ a.n0 * a.n1)
    (h : msdBootstrap sq o opt g deltaT disp nO sub d = .ok (b, g')) :
    ∃ ds dts, pyStride sub disp = .ok ds ∧ pyStride sub deltaT = .ok dts ∧ b.n = ds.map (msd (axesOf d)) ∧ b.ngp = ds.map (ngpEntry (axesOf d)) ∧
      b.dt = dts.take ds.length := by
  obtain ⟨ds, dts, c1, c2, cl, c3, c4⟩ := C28_msd sq o opt hblock g g' deltaT disp nO sub d b h
  have hlen := recorded_all c1 h2 c3 c4
  obtain ⟨ds', c1', c5⟩ := C35_ngp_value sq o opt g g' deltaT disp nO sub d b h
  obtain ⟨b0, P, hb0, hP, hrec, hskip, -⟩ := msdBootstrap_inv h
  have hg : b.ngp.length = b.n.length := by rw [hrec.lg, hrec.ln]
  rw [c1] at c1'
  obtain rfl := Except.ok.inj c1'
  have hmap : ∀ {γ : Type} {l : List γ} {f : Arr3 K → γ}, l.length = ds.length → (∀ i < l.length, ∃ a, ds[i]? = some a ∧ l[i]? = some (f a)) → l = ds.map f := by
    intro γ l f hl hi
    apply List.ext_getElem?
    intro i
    rw [List.getElem?_map]
    by_cases hi' : i < l.length
    · obtain ⟨a, e1, e2⟩ := hi i hi'
      rw [e1, e2]
      rfl
    · rw [List.getElem?_eq_none (by omega), List.getElem?_eq_none (by omega)]
      rfl
  refine ⟨ds, dts, c1, c2, hmap hlen fun i hi => ?_, hmap (hg.trans hlen) fun i hi => ?_, ?_⟩
  · obtain ⟨a, e1, -, e2, -⟩ := c3 i hi
    exact ⟨a, e1, e2⟩
  · exact c5 i hi
  · apply List.ext_getElem?
    intro i
    rw [List.getElem?_take]
    split
    · rename_i hi
      obtain ⟨a, -, -, -, e⟩ := c3 i (by omega)
      exact e
    · exact List.getElem?_eq_none (by omega)

theorem copied_mem {α β : Type} {T : α → β → Prop} {l : List α} {l' : List β} (h : List.Forall₂ T l l') {b : β} (hb : b ∈ l') : ∃ a ∈ l, T a b := by
  induction h with
  | nil => cases hb
  | cons hab _ ih =>
    rcases List.mem_cons.mp hb with rfl | hb
    · exact ⟨_, by simp, hab⟩
    · obtain ⟨a, ha, hT⟩ := ih hb
      exact ⟨a, by simp [ha], hT⟩

theorem flatten_getD {α : Type} (l : List α) (z : α) (R c r : ℕ) (hc : c < R) (hr : r < l.length) :
    (List.replicate R l).flatten.getD (c * l.length + r) z = l.getD r z := by
  induction R generalizing c with
  | zero => omega
  | succ R ih =>
    rw [List.replicate_succ, List.flatten_cons]
    cases c with
    | zero => rw [Nat.zero_mul, Nat.zero_add, List.getD_eq_getElem?_getD, List.getElem?_append_left hr, ← List.getD_eq_getElem?_getD]
    | succ c =>
      have e : (c + 1) * l.length + r = l.length + (c * l.length + r) := by ring
      rw [e, List.getD_eq_getElem?_getD, List.getElem?_append_right (by omega), Nat.add_sub_cancel_left, ← List.getD_eq_getElem?_getD]
      exact ih c (by omega)

theorem superCharge_of (R N : ℕ) (q : Charge K) (hq : ∀ l, q = .array l → l.length = N) (c : ℕ) (hc : c < R) (r : ℕ) (hr : r < N) :
    (superCharge R q).of (c * N + r) = q.of r := by
  cases q with
  | scalar x => rfl
  | array l =>
    obtain rfl := hq l rfl
    exact flatten_getD l 0 R c r hc hr

/-- A step within half of a cell is within half of the repeated cell. -/
theorem half_super {m : Fin 3 → ℕ} (hm : ∀ k, 0 < m k) {L : M3 K} (hL : det3 L ≠ 0) {d : V3 K} (h : HalfCell (vm d (invFun L))) :
    HalfCell (vm d (invFun (superCell m L))) := by
  have hm' : ∀ k, (1 : K) ≤ m k := fun k => by exact_mod_cast hm k
  have hdet : det3 (superCell m L) = (m 0 : K) * m 1 * m 2 * det3 L := by
    simp only [det3, superCell]
    ring
  have hd' : det3 (superCell m L) ≠ 0 := by
    rw [hdet]
    have h0 := hm' 0
    have h1 := hm' 1
    have h2 := hm' 2
    have : (0 : K) < (m 0 : K) * m 1 * m 2 := by positivity
    exact mul_ne_zero this.ne' hL
  have e : vm d (invFun (superCell m L)) = fun k => vm d (invFun L) k / m k := by
    have hd := vm_inv_right hL d
    rw [← vm_inv_left hd' fun k => vm d (invFun L) k / m k]
    congr 1
    generalize vm d (invFun L) = f at hd
    rw [← hd]
    funext l
    have h0 : (m 0 : K) ≠ 0 := by linarith [hm' 0]
    have h1 : (m 1 : K) ≠ 0 := by linarith [hm' 1]
    have h2 : (m 2 : K) ≠ 0 := by linarith [hm' 2]
    simp only [vm, Fin.sum_univ_three, superCell]
    field_simp
  rw [e]
  intro k
  have hk := hm' k
  have hp : (0 : K) < m k := by linarith
  obtain ⟨h1, h2⟩ := h k
  constructor
  · rw [le_div_iff₀ hp]
    nlinarith
  · rw [div_lt_iff₀ hp]
    nlinarith

theorem pyStride_forall₂ {α β : Type} {T : α → β → Prop} {l ds : List α} {l' ds' : List β} {sub : ℤ} (h : List.Forall₂ T l l')
    (e : pyStride sub l = .ok ds) (e' : pyStride sub l' = .ok ds') : List.Forall₂ T ds ds' := by
  obtain ⟨p, rfl, rfl, hp⟩ : ∃ p : List (α × β), p.map Prod.fst = l ∧ p.map Prod.snd = l' ∧ ∀ q ∈ p, T q.1 q.2 := by
    clear e e'
    induction h with
    | nil => exact ⟨[], rfl, rfl, by simp⟩
    | cons hab _ ih =>
      obtain ⟨p, rfl, rfl, hp⟩ := ih
      exact ⟨(_, _) :: p, rfl, rfl, by simpa using ⟨hab, fun a b => hp (a, b)⟩⟩
  rw [pyStride_map] at e e'
  cases hs : pyStride sub p with
  | error x => rw [hs] at e; cases e
  | ok q =>
    rw [hs] at e e'
    obtain rfl := Except.ok.inj e
    obtain rfl := Except.ok.inj e'
    have : ∀ x ∈ q, T x.1 x.2 := fun x hx => hp x (pyStride_mem hs hx)
    clear hs e e'
    induction q with
    | nil => exact .nil
    | cons x q ih => exact .cons (this x (by simp)) (ih fun y hy => this y (by simp [hy]))

theorem first_half_copied {R : ℕ} {l l' : List (Arr3 K)} {sub : ℤ} (h : List.Forall₂ (Copied R) l l')
    (hobs : ∀ ds, pyStride sub l = .ok ds → ∀ a ∈ ds.take (ds.length / 2), 2 ≤ a.n1) :
    ∀ ds, pyStride sub l' = .ok ds → ∀ a ∈ ds.take (ds.length / 2), 2 ≤ a.n1 := by
  intro ds' e' a' ha'
  cases e : pyStride sub l with
  | error x =>
    unfold pyStride at e e'
    split_ifs at e e'
  | ok ds =>
    have hd := pyStride_forall₂ h e e'
    have ht : List.Forall₂ (Copied R) (ds.take (ds.length / 2)) (ds'.take (ds'.length / 2)) := by
      rw [hd.length_eq]
      exact List.forall₂_take _ hd
    obtain ⟨a, ha, hcop⟩ := copied_mem ht ha'
    rw [hcop.n1]
    exact hobs ds e a ha

/-! ## C119 -/

/-- **C119.** A trajectory, and the trajectory of `R` copies of its cell: same species, copy `c` displaced by `off c`, any cells and images in which the
steps are within half of the cell.  If both are analysed (the larger one may exceed the memory limit), the times, the MSD and the non-Gaussian parameter
are the same, and the number of independent observations is `R` times as large.  What is missing: the species must have at least two atoms, see
`C119_violated`. -/
theorem C119_msd_partial (R : ℕ) (hR : 0 < R) (E : Num K) (hE : E.fl = id) (P : Params K) (S : Select K) (sp : List String) (hS : S.specie = some sp)
    (hSf : S.framework = none) (sy : List String) (h2 : 2 ≤ (chosen sy sp).length) (k F : ℕ) (hk : 0 < k) (hF : 0 < F) (C C' : ℕ → M3 K)
    (hC : ∀ j, k * j < F → NonSingular (C (k * j))) (hC' : ∀ j, k * j < F → NonSingular (C' (k * j))) (V V' : ℕ → K) (s s' x : ℕ → ℕ → V3 K) (off : ℕ → V3 K)
    (hs : StoredIn ((F + k - 1) / k) sy.length (fun j => C (k * j)) (fun i j => s i (k * j)) (fun i j => x i (k * j)))
    (hs' : StoredIn ((F + k - 1) / k) (superSymbols R sy).length (fun j => C' (k * j)) (fun i j => s' i (k * j))
      (fun i j => superMotion sy.length off x i (k * j))) (base base' : PyM (Base K))
    (hb : ReadSuper R E P S k F sy C C' V V' s s' base base') (sq : K → K) (o : Oracle K G) (U : UncParams K) (hblock : U.opt.block = false)
    (g₁ g₁' g₂ g₂' : G) (Z Z' : Analyzer K) (h : diffusionAnalyzer sq o g₁ U base = .ok (Z, g₁')) (h' : diffusionAnalyzer sq o g₂ U base' = .ok (Z', g₂')) :
    Z'.diff.dt = Z.diff.dt ∧ Z'.diff.n = Z.diff.n ∧ Z'.diff.ngp = Z.diff.ngp ∧ Z'.nO = Z.nO.map fun x : K => (R : K) * x := by
  obtain ⟨B, hB, rfl, hm⟩ := diffusion_inv h
  obtain ⟨B', hB', rfl, hm'⟩ := diffusion_inv h'
  have hc := base_copied hR hE hS hSf h2 hk hF hC hC' hs hs' hb hB hB'
  have hw : ∀ a ∈ Z.disp3d, 2 ≤ a.n0 * a.n1 := by
    intro a ha
    obtain ⟨e1, e2⟩ := hc.atoms a ha
    have := Nat.mul_le_mul h2 e2
    rw [e1]
    omega
  have hw' : ∀ a ∈ Z'.disp3d, 2 ≤ a.n0 * a.n1 := by
    intro a' ha'
    obtain ⟨a, ha, hcop⟩ := copied_mem hc.disp ha'
    have := hw _ ha
    rw [hcop.n0, hcop.n1, Nat.mul_assoc]
    have := Nat.mul_le_mul hR this
    omega
  obtain ⟨ds, dts, c1, c2, c3, c4, c5⟩ := msd_columns sq o U.opt hblock g₁ g₁' _ _ _ U.sub U.dimension Z.diff hw hm
  obtain ⟨ds', dts', c1', c2', c3', c4', c5'⟩ := msd_columns sq o U.opt hblock g₂ g₂' _ _ _ U.sub U.dimension Z'.diff hw' hm'
  rw [hc.deltaT, c2] at c2'
  obtain rfl := Except.ok.inj c2'
  have m1 := stride_images c1' c1 (forall₂_map hc.disp fun a b _ hab => (msd_copied hR hab (axesOf U.dimension)).symm).symm
  have m2 := stride_images c1' c1 (forall₂_map hc.disp fun a b _ hab => (ngp_copied hR hab (axesOf U.dimension)).symm).symm
  have hlen : ds'.length = ds.length := by simpa using congrArg List.length m1
  exact ⟨by rw [c5, c5', hlen], by rw [c3, c3', m1], by rw [c4, c4', m2], hc.nO⟩

/-- **C119, the variance.** The variance of the `R` copies and that of the one cell: with `M` the number of displacements of the interval in the one cell,
`v' (R M - 1) = v (M - 1)`.  What is missing: as in `C119_msd_partial`. -/
theorem C119_variance_partial (R : ℕ) (hR : 0 < R) (E : Num K) (hE : E.fl = id) (P : Params K) (S : Select K) (sp : List String) (hS : S.specie = some sp)
    (hSf : S.framework = none) (sy : List String) (h2 : 2 ≤ (chosen sy sp).length) (k F : ℕ) (hk : 0 < k) (hF : 0 < F) (C C' : ℕ → M3 K)
    (hC : ∀ j, k * j < F → NonSingular (C (k * j))) (hC' : ∀ j, k * j < F → NonSingular (C' (k * j))) (V V' : ℕ → K) (s s' x : ℕ → ℕ → V3 K) (off : ℕ → V3 K)
    (hs : StoredIn ((F + k - 1) / k) sy.length (fun j => C (k * j)) (fun i j => s i (k * j)) (fun i j => x i (k * j)))
    (hs' : StoredIn ((F + k - 1) / k) (superSymbols R sy).length (fun j => C' (k * j)) (fun i j => s' i (k * j))
      (fun i j => superMotion sy.length off x i (k * j))) (base base' : PyM (Base K))
    (hb : ReadSuper R E P S k F sy C C' V V' s s' base base') (sq : K → K) (o : Oracle K G) (U : UncParams K) (hblock : U.opt.block = false)
    (g₁ g₁' g₂ g₂' : G) (Z Z' : Analyzer K)
    (h : diffusionAnalyzer sq o g₁ U base = .ok (Z, g₁')) (h' : diffusionAnalyzer sq o g₂ U base' = .ok (Z', g₂')) (hno : ∀ x ∈ Z.nO, 0 < x) :
    Z'.diff.v.length = Z.diff.v.length ∧ ∀ i < Z.diff.v.length, ∃ (M : ℕ) (v v' : K), 2 ≤ M ∧ Z.diff.v[i]? = some (some v) ∧ Z'.diff.v[i]? = some (some v') ∧
      v' * (R * M - 1) = v * (M - 1) := by
  obtain ⟨-, hn, -, hnO⟩ := C119_msd_partial R hR E hE P S sp hS hSf sy h2 k F hk hF C C' hC hC' V V' s s' x off hs hs' base base' hb sq o U hblock
    g₁ g₁' g₂ g₂' Z Z' h h'
  obtain ⟨B, hB, rfl, hm⟩ := diffusion_inv h
  obtain ⟨B', hB', rfl, hm'⟩ := diffusion_inv h'
  have hc := base_copied hR hE hS hSf h2 hk hF hC hC' hs hs' hb hB hB'
  have hRK : (0 : K) < R := by exact_mod_cast hR
  have hno' : ∀ x ∈ Z'.nO, 0 < x := by
    intro x hx
    rw [hnO] at hx
    obtain ⟨y, hy, rfl⟩ := List.mem_map.mp hx
    exact mul_pos hRK (hno y hy)
  obtain ⟨l1, -, -, -, -, ds, c1, c2⟩ := msd_variance sq o U.opt hblock g₁ g₁' _ _ _ hno U.sub U.dimension Z.diff hm
  obtain ⟨l1', -, -, -, -, ds', c1', c2'⟩ := msd_variance sq o U.opt hblock g₂ g₂' _ _ _ hno' U.sub U.dimension Z'.diff hm'
  refine ⟨by rw [l1, l1', hn], fun i hi => ?_⟩
  rw [l1] at hi
  obtain ⟨a, no, e1, e2, e3, -⟩ := c2 i hi
  obtain ⟨a', no', e1', e2', e3', -⟩ := c2' i (by rw [hn]; exact hi)
  have hcop : Copied R a a' := by
    have := pyStride_forall₂ hc.disp c1 c1'
    obtain ⟨hlt, rfl⟩ := List.getElem?_eq_some_iff.mp e1
    obtain ⟨hlt', rfl⟩ := List.getElem?_eq_some_iff.mp e1'
    exact this.get hlt hlt'
  have hnn : no' = R * no := by
    rw [hnO, List.getElem?_map, e2] at e2'
    exact (Option.some.inj e2').symm
  obtain ⟨q1, q2⟩ := hc.atoms a (pyStride_mem c1 (List.mem_of_getElem? e1))
  have hcard : 2 ≤ (pairs a).card := by
    rw [pairs, Finset.card_product, Finset.card_range, Finset.card_range, q1]
    have := Nat.mul_le_mul h2 q2
    omega
  refine ⟨(pairs a).card, _, _, hcard, e3, e3', ?_⟩
  have hv := var_copied hR hcop hcard (axesOf U.dimension)
  have hp : 0 < no := hno _ (List.mem_of_getElem? e2)
  rw [hnn, div_mul_eq_mul_div, hv, div_mul_eq_mul_div, mul_div_mul_left _ _ hRK.ne']

/-- **C119, total displacements.** The MSTD of the `R` copies, whose motions are the same, is `R ^ 2` times that of the one cell.  What is missing: as in
`C119_msd_partial`; each interval of the first half must have two observations. -/
theorem C119_mstd_partial (R : ℕ) (hR : 0 < R) (E : Num K) (hE : E.fl = id) (P : Params K) (S : Select K) (sp : List String) (hS : S.specie = some sp)
    (hSf : S.framework = none) (sy : List String) (h2 : 2 ≤ (chosen sy sp).length) (k F : ℕ) (hk : 0 < k) (hF : 0 < F) (C C' : ℕ → M3 K)
    (hC : ∀ j, k * j < F → NonSingular (C (k * j))) (hC' : ∀ j, k * j < F → NonSingular (C' (k * j))) (V V' : ℕ → K) (s s' x : ℕ → ℕ → V3 K) (off : ℕ → V3 K)
    (hs : StoredIn ((F + k - 1) / k) sy.length (fun j => C (k * j)) (fun i j => s i (k * j)) (fun i j => x i (k * j)))
    (hs' : StoredIn ((F + k - 1) / k) (superSymbols R sy).length (fun j => C' (k * j)) (fun i j => s' i (k * j))
      (fun i j => superMotion sy.length off x i (k * j))) (base base' : PyM (Base K))
    (hb : ReadSuper R E P S k F sy C C' V V' s s' base base') (sq : K → K) (o : Oracle K G) (U : UncParams K) (hblock : U.opt.block = false)
    (g₁ g₁' g₂ g₂' : G) (Z Z' : Analyzer K)
    (hobs : ∀ ds, pyStride U.sub Z.disp3d = .ok ds → ∀ a ∈ ds.take (ds.length / 2), 2 ≤ a.n1) (h : jumpAnalyzer sq o g₁ U base = .ok (Z, g₁')) (h' : jumpAnalyzer sq o g₂ U base' = .ok (Z', g₂')) :
    Z'.diff.dt = Z.diff.dt ∧ Z'.diff.n = Z.diff.n.map fun y : K => (R : K) ^ 2 * y := by
  obtain ⟨B, hB, rfl, hm⟩ := jump_inv h
  obtain ⟨B', hB', rfl, hm'⟩ := jump_inv h'
  have hc := base_copied hR hE hS hSf h2 hk hF hC hC' hs hs' hb hB hB'
  have hobs' := first_half_copied hc.disp hobs
  obtain ⟨ds, dts, c1, c2, c3, c4⟩ := C29_mstd sq o U.opt hblock g₁ g₁' _ _ _ U.sub U.dimension Z.diff hobs hm
  obtain ⟨ds', dts', c1', c2', c3', c4'⟩ := C29_mstd sq o U.opt hblock g₂ g₂' _ _ _ U.sub U.dimension Z'.diff hobs' hm'
  rw [hc.deltaT, c2] at c2'
  obtain rfl := Except.ok.inj c2'
  have hd := pyStride_forall₂ hc.disp c1 c1'
  refine ⟨by rw [c4, c4', hd.length_eq], ?_⟩
  rw [c3, c3', ← hd.length_eq, List.map_take, List.map_take, List.map_take, List.map_map,
    ← forall₂_map hd fun a b _ hab => (mstd_copied hab (axesOf U.dimension)).symm]
  rfl

/-- **C119, charges.** The MSCD of the `R` copies, each ion with the charge it has in the one cell, is `R ^ 2` times that of the one cell.  What is missing:
as in `C119_mstd_partial`. -/
theorem C119_mscd_partial (R : ℕ) (hR : 0 < R) (E : Num K) (hE : E.fl = id) (P : Params K) (S : Select K) (sp : List String) (hS : S.specie = some sp)
    (hSf : S.framework = none) (sy : List String) (h2 : 2 ≤ (chosen sy sp).length) (k F : ℕ) (hk : 0 < k) (hF : 0 < F) (C C' : ℕ → M3 K)
    (hC : ∀ j, k * j < F → NonSingular (C (k * j))) (hC' : ∀ j, k * j < F → NonSingular (C' (k * j))) (V V' : ℕ → K) (s s' x : ℕ → ℕ → V3 K) (off : ℕ → V3 K)
    (hs : StoredIn ((F + k - 1) / k) sy.length (fun j => C (k * j)) (fun i j => s i (k * j)) (fun i j => x i (k * j)))
    (hs' : StoredIn ((F + k - 1) / k) (superSymbols R sy).length (fun j => C' (k * j)) (fun i j => s' i (k * j))
      (fun i j => superMotion sy.length off x i (k * j))) (base base' : PyM (Base K))
    (hb : ReadSuper R E P S k F sy C C' V V' s s' base base') (sq : K → K) (o : Oracle K G) (U : UncParams K) (hblock : U.opt.block = false)
    (g₁ g₁' g₂ g₂' : G) (Z Z' : Analyzer K)
    (hobs : ∀ ds, pyStride U.sub Z.disp3d = .ok ds → ∀ a ∈ ds.take (ds.length / 2), 2 ≤ a.n1) (charge : Charge K) (hq : ∀ l, charge = .array l → l.length = (chosen sy sp).length)
    (h : conductivityAnalyzer sq o g₁ U charge base = .ok (Z, g₁')) (h' : conductivityAnalyzer sq o g₂ U (superCharge R charge) base' = .ok (Z', g₂')) :
    Z'.diff.dt = Z.diff.dt ∧ Z'.diff.n = Z.diff.n.map fun y : K => (R : K) ^ 2 * y := by
  obtain ⟨B, hB, rfl, hm⟩ := conductivity_inv h
  obtain ⟨B', hB', rfl, hm'⟩ := conductivity_inv h'
  have hc := base_copied hR hE hS hSf h2 hk hF hC hC' hs hs' hb hB hB'
  have hobs' := first_half_copied hc.disp hobs
  have hN : ∀ a ∈ Z.disp3d, a.n0 = (chosen sy sp).length := fun a ha => (hc.atoms a ha).1
  have hN' : ∀ a ∈ Z'.disp3d, a.n0 = R * (chosen sy sp).length := by
    intro a' ha'
    obtain ⟨a, ha, hcop⟩ := copied_mem hc.disp ha'
    rw [hcop.n0, hN a ha]
  have hq' : ∀ l, superCharge R charge = .array l → l.length = R * (chosen sy sp).length := by
    intro l hl
    cases charge with
    | scalar q => cases hl
    | array q =>
      obtain rfl := Charge.array.inj hl
      rw [List.length_flatten, List.map_replicate, List.sum_replicate, smul_eq_mul, hq q rfl]
  obtain ⟨ds, dts, c1, c2, c3, c4⟩ := C31_mscd_ignores_dimension sq o U.opt hblock g₁ g₁' _ _ charge _ U.sub U.dimension Z.diff _ hobs hN hq hm
  obtain ⟨ds', dts', c1', c2', c3', c4'⟩ := C31_mscd_ignores_dimension sq o U.opt hblock g₂ g₂' _ _ _ _ U.sub U.dimension Z'.diff _ hobs' hN' hq' hm'
  rw [hc.deltaT, c2] at c2'
  obtain rfl := Except.ok.inj c2'
  have hd := pyStride_forall₂ hc.disp c1 c1'
  refine ⟨by rw [c4, c4', hd.length_eq], ?_⟩
  rw [c3, c3', ← hd.length_eq, List.map_take, List.map_take, List.map_take, List.map_map,
    ← forall₂_map hd fun a b ha hab => (mscd_copied hab Finset.univ (q := charge.of) (q' := (superCharge R charge).of) (by
      rw [hN a (pyStride_mem c1 ha)]
      exact fun c hcR r hr => superCharge_of R _ charge hq c hcR r hr)).symm]
  rfl

/-! ## The full property is violated; examples -/

/-- Two Li atoms that move along different directions, and an O atom at rest. -/
def exTwoLi : ℕ → ℕ → V3 ℚ := fun i j => if i = 0 then ![(j : ℚ), 4 / 5 * (j : ℚ), 0] else if i = 1 then ![0, 0, -(j : ℚ)] else 0

/-- The displacement of copy `c` of the cell along the first lattice vector. -/
def exShift (L : M3 ℚ) : ℕ → V3 ℚ := fun c l => (c : ℚ) * L 0 l

/-- **C119, the full property is violated.** One Li atom and one O atom, and two copies of this cell along the first lattice vector.  The one atom has an MSD
at two intervals only, the two copies have it at five. -/
theorem C119_violated :
    (diffusionAnalyzer id (exOracle ℚ) () exUnc (fromAse exNum exParams exSelect 1 none (.one
      (cellFrames 5 ["Li", "O"] (fun _ => exSkew) (fun _ => 800) (inCell exSkew exSlow))))).toOption.map (fun p => p.1.diff.n) =
        some [164 / 125, 533 / 100] ∧
    (diffusionAnalyzer id (exOracle ℚ) () exUnc (fromAse exNum exParams exSelect 1 none (.one
      (cellFrames 5 (superSymbols 2 ["Li", "O"]) (fun _ => superCell ![2, 1, 1] exSkew) (fun _ => 1600)
        (inCell (superCell ![2, 1, 1] exSkew) (superMotion 2 (exShift exSkew) exSlow)))))).toOption.map (fun p => p.1.diff.n) =
        some [164 / 125, 533 / 100, 902 / 75, 41 / 2, 656 / 25] := by
  refine ⟨by decide +kernel, by decide +kernel⟩

theorem exTwoLi_half : ∀ i < 3, ∀ j, j + 1 < 5 → HalfCell (vm (fun l => exTwoLi i (j + 1) l - exTwoLi i j l) (invFun exSkew)) := by
  intro i hi j hj
  have : j < 4 := by omega
  interval_cases i <;> interval_cases j <;> · unfold HalfCell; decide +kernel

/-- The two analyses of the examples: the one cell, and two copies with wandering images. -/
def exOneCell : PyM (Base ℚ) := fromPymatgen exNum exParams exSelect 1 none (.one (cellFrames 5 ["Li", "Li", "O"] (fun _ => exSkew) (fun _ => 800) fun i j k =>
  vm (exTwoLi i (1 * j)) (invFun exSkew) k + ((0 : ℤ) : ℚ)))

def exTwoCells : PyM (Base ℚ) := fromPymatgen exNum exParams exSelect 1 none (.one (cellFrames 5 (superSymbols 2 ["Li", "Li", "O"])
  (fun _ => superCell ![2, 1, 1] exSkew) (fun _ => 1600) fun i j k =>
    vm (superMotion 3 (exShift exSkew) exTwoLi i (1 * j)) (invFun (superCell ![2, 1, 1] exSkew)) k + (((j : ℤ) : ℤ) : ℚ)))

theorem exTwoCells_stored : StoredIn ((5 + 1 - 1) / 1) (superSymbols 2 ["Li", "Li", "O"]).length (fun _ => superCell ![2, 1, 1] exSkew)
    (fun i j => fun k => vm (superMotion 3 (exShift exSkew) exTwoLi i (1 * j)) (invFun (superCell ![2, 1, 1] exSkew)) k + (((j : ℤ) : ℤ) : ℚ))
    (fun i j => superMotion 3 (exShift exSkew) exTwoLi i (1 * j)) := by
  refine stored_fixed (F := 5) (n := 6) (by decide +kernel) (x := fun i j => superMotion 3 (exShift exSkew) exTwoLi i (1 * j)) (fun _ j _ => (j : ℤ)) fun i hi j hj => ?_
  refine half_super (by decide) (by decide +kernel) ?_
  have : (fun l => superMotion 3 (exShift exSkew) exTwoLi i (1 * (j + 1)) l - superMotion 3 (exShift exSkew) exTwoLi i (1 * j) l) =
      fun l => exTwoLi (i % 3) (j + 1) l - exTwoLi (i % 3) j l := by
    funext l
    simp only [superMotion, Nat.one_mul]
    ring
  rw [this]
  exact exTwoLi_half _ (Nat.mod_lt _ (by norm_num)) j hj

theorem exOneCell_stored : StoredIn ((5 + 1 - 1) / 1) ["Li", "Li", "O"].length (fun _ => exSkew)
    (fun i j => fun k => vm (exTwoLi i (1 * j)) (invFun exSkew) k + ((0 : ℤ) : ℚ)) (fun i j => exTwoLi i (1 * j)) := by
  refine stored_fixed (F := 5) (n := 3) (by decide +kernel) (x := fun i j => exTwoLi i (1 * j)) (fun _ _ _ => 0) fun i hi j hj => ?_
  simp only [Nat.one_mul]
  exact exTwoLi_half i hi j hj

/-- `C119_msd_partial` -/
example : ∃ Z Z', diffusionAnalyzer id (exOracle ℚ) () exUnc exOneCell = .ok (Z, ()) ∧ diffusionAnalyzer id (exOracle ℚ) () exUnc exTwoCells = .ok (Z', ()) ∧
    Z'.diff.dt = Z.diff.dt ∧ Z'.diff.n = Z.diff.n ∧ Z'.diff.ngp = Z.diff.ngp ∧ Z'.nO = Z.nO.map fun x : ℚ => ((2 : ℕ) : ℚ) * x := by
  obtain ⟨Z, h⟩ := exRun_ok (x := diffusionAnalyzer id (exOracle ℚ) () exUnc exOneCell) (by decide +kernel)
  obtain ⟨Z', h'⟩ := exRun_ok (x := diffusionAnalyzer id (exOracle ℚ) () exUnc exTwoCells) (by decide +kernel)
  exact ⟨Z, Z', h, h', C119_msd_partial 2 (by norm_num) exNum rfl exParams exSelect ["Li"] rfl rfl ["Li", "Li", "O"] (by decide +kernel) 1 5 (by norm_num) (by norm_num)
    _ _ (fun _ _ => by rw [nonSingular_iff]; decide +kernel) (fun _ _ => by rw [nonSingular_iff]; decide +kernel) _ _ _ _ exTwoLi (exShift exSkew)
    (by simpa using exOneCell_stored) (by simpa using exTwoCells_stored) _ _ (.inr (.inl ⟨rfl, rfl⟩)) id (exOracle ℚ) exUnc rfl () () () () Z Z' h h'⟩

/-- `C119_variance_partial` -/
example : ∃ Z Z', diffusionAnalyzer id (exOracle ℚ) () exUnc exOneCell = .ok (Z, ()) ∧ diffusionAnalyzer id (exOracle ℚ) () exUnc exTwoCells = .ok (Z', ()) ∧
    ∀ i < Z.diff.v.length, ∃ (M : ℕ) (v v' : ℚ), 2 ≤ M ∧ Z.diff.v[i]? = some (some v) ∧ Z'.diff.v[i]? = some (some v') ∧
      v' * ((2 : ℕ) * M - 1) = v * (M - 1) := by
  obtain ⟨Z, h⟩ := exRun_ok (x := diffusionAnalyzer id (exOracle ℚ) () exUnc exOneCell) (by decide +kernel)
  obtain ⟨Z', h'⟩ := exRun_ok (x := diffusionAnalyzer id (exOracle ℚ) () exUnc exTwoCells) (by decide +kernel)
  have hno : ∀ x ∈ Z.nO, 0 < x := by
    have e : (diffusionAnalyzer id (exOracle ℚ) () exUnc exOneCell).toOption.map (fun p => p.1.nO.all fun x => decide (0 < x)) = some true := by decide +kernel
    rw [h] at e
    have e' : (Z.nO.all fun x => decide (0 < x)) = true := Option.some.inj e
    simpa using e'
  exact ⟨Z, Z', h, h', (C119_variance_partial 2 (by norm_num) exNum rfl exParams exSelect ["Li"] rfl rfl ["Li", "Li", "O"] (by decide +kernel) 1 5 (by norm_num) (by norm_num)
    _ _ (fun _ _ => by rw [nonSingular_iff]; decide +kernel) (fun _ _ => by rw [nonSingular_iff]; decide +kernel) _ _ _ _ exTwoLi (exShift exSkew)
    (by simpa using exOneCell_stored) (by simpa using exTwoCells_stored) _ _ (.inr (.inl ⟨rfl, rfl⟩)) id (exOracle ℚ) exUnc rfl () () () () Z Z' h h' hno).2⟩

/-- `C119_mstd_partial` -/
example : ∃ Z Z', jumpAnalyzer id (exOracle ℚ) () exUnc exOneCell = .ok (Z, ()) ∧ jumpAnalyzer id (exOracle ℚ) () exUnc exTwoCells = .ok (Z', ()) ∧
    Z'.diff.dt = Z.diff.dt ∧ Z'.diff.n = Z.diff.n.map fun y : ℚ => ((2 : ℕ) : ℚ) ^ 2 * y := by
  obtain ⟨Z, h⟩ := exRun_ok (x := jumpAnalyzer id (exOracle ℚ) () exUnc exOneCell) (by decide +kernel)
  obtain ⟨Z', h'⟩ := exRun_ok (x := jumpAnalyzer id (exOracle ℚ) () exUnc exTwoCells) (by decide +kernel)
  have hobs : ∀ ds, pyStride 1 Z.disp3d = .ok ds → ∀ a ∈ ds.take (ds.length / 2), 2 ≤ a.n1 := by
    have e : (jumpAnalyzer id (exOracle ℚ) () exUnc exOneCell).toOption.map (fun p => (p.1.disp3d.take (p.1.disp3d.length / 2)).map Arr3.n1) = some [5, 4] := by
      decide +kernel
    rw [h] at e
    have e' : (Z.disp3d.take (Z.disp3d.length / 2)).map Arr3.n1 = [5, 4] := Option.some.inj e
    intro ds hds a ha
    rw [pyStride_one] at hds
    obtain rfl := Except.ok.inj hds
    have := List.mem_map_of_mem (f := Arr3.n1) ha
    rw [e'] at this
    simp at this
    omega
  exact ⟨Z, Z', h, h', C119_mstd_partial 2 (by norm_num) exNum rfl exParams exSelect ["Li"] rfl rfl ["Li", "Li", "O"] (by decide +kernel) 1 5 (by norm_num) (by norm_num)
    _ _ (fun _ _ => by rw [nonSingular_iff]; decide +kernel) (fun _ _ => by rw [nonSingular_iff]; decide +kernel) _ _ _ _ exTwoLi (exShift exSkew)
    (by simpa using exOneCell_stored) (by simpa using exTwoCells_stored) _ _ (.inr (.inl ⟨rfl, rfl⟩)) id (exOracle ℚ) exUnc rfl () () () () Z Z' hobs h h'⟩

/-- `C119_mscd_partial` -/
example : ∃ Z Z', conductivityAnalyzer id (exOracle ℚ) () exUnc (.array [1, -2]) exOneCell = .ok (Z, ()) ∧
    conductivityAnalyzer id (exOracle ℚ) () exUnc (.array [1, -2, 1, -2]) exTwoCells = .ok (Z', ()) ∧
    Z'.diff.dt = Z.diff.dt ∧ Z'.diff.n = Z.diff.n.map fun y : ℚ => ((2 : ℕ) : ℚ) ^ 2 * y := by
  obtain ⟨Z, h⟩ := exRun_ok (x := conductivityAnalyzer id (exOracle ℚ) () exUnc (.array [1, -2]) exOneCell) (by decide +kernel)
  obtain ⟨Z', h'⟩ := exRun_ok (x := conductivityAnalyzer id (exOracle ℚ) () exUnc (.array [1, -2, 1, -2]) exTwoCells) (by decide +kernel)
  have hobs : ∀ ds, pyStride 1 Z.disp3d = .ok ds → ∀ a ∈ ds.take (ds.length / 2), 2 ≤ a.n1 := by
    have e : (conductivityAnalyzer id (exOracle ℚ) () exUnc (.array [1, -2]) exOneCell).toOption.map (fun p => (p.1.disp3d.take (p.1.disp3d.length / 2)).map Arr3.n1) = some [5, 4] := by
      decide +kernel
    rw [h] at e
    have e' : (Z.disp3d.take (Z.disp3d.length / 2)).map Arr3.n1 = [5, 4] := Option.some.inj e
    intro ds hds a ha
    rw [pyStride_one] at hds
    obtain rfl := Except.ok.inj hds
    have := List.mem_map_of_mem (f := Arr3.n1) ha
    rw [e'] at this
    simp at this
    omega
  exact ⟨Z, Z', h, h', C119_mscd_partial 2 (by norm_num) exNum rfl exParams exSelect ["Li"] rfl rfl ["Li", "Li", "O"] (by decide +kernel) 1 5 (by norm_num) (by norm_num)
    _ _ (fun _ _ => by rw [nonSingular_iff]; decide +kernel) (fun _ _ => by rw [nonSingular_iff]; decide +kernel) _ _ _ _ exTwoLi (exShift exSkew)
    (by simpa using exOneCell_stored) (by simpa using exTwoCells_stored) _ _ (.inr (.inl ⟨rfl, rfl⟩)) id (exOracle ℚ) exUnc rfl () () () () Z Z' hobs (.array [1, -2]) (by intro l hl; cases hl; decide +kernel) h h'⟩

end Kinisi
