import Verif.Props.EndToEndTotal
import Verif.Props.Disp
import Verif.Lemmas.Runs

/-!
# C79: valid input is analysed without an exception
-/

set_option linter.unusedSectionVars false
set_option linter.unusedVariables false

namespace Kinisi
open Spec
variable {K : Type} [Field K] [LinearOrder K] [IsStrictOrderedRing K] [FloorRing K] {G : Type}

/-- The frame has `n` atoms, a cell with a volume, and an atom of the chosen species. -/
def ValidFrame (n : ℕ) (sp : List String) (f : Frame K) : Prop :=
  f.symbols.length = n ∧ f.frac.length = n ∧ NonSingular f.latt ∧ ∃ s ∈ f.symbols, s ∈ sp

/-- Default bounds and at least one interval asked for: a list that starts with 1 and ascends to at most `T`. -/
theorem default_intervals_ok (geo : ℤ → ℤ → ℕ → ℕ → K) {ts ss : PyNum K} (hpos : 0 < ss.val * ts.val) {T : ℕ} (hT : 2 ≤ T)
    {nSteps : ℤ} (hn : 1 ≤ nSteps) : ∃ nat : List ℕ,
      initTimeIntervals id geo T ts ss none none nSteps "linear" = .ok (nat.map fun τ : ℕ => (τ : ℤ)) ∧
      1 ∈ nat ∧ (∀ τ ∈ nat, 1 ≤ τ ∧ τ ≤ T) ∧ nat.Pairwise (· < ·) := by
  have hmax : (PyNum.mul id (PyNum.int (T : ℤ)) (PyNum.mul id ss ts)).val = (T : K) * (ss.val * ts.val) := by
    rw [PyNum.val_mul_id, PyNum.val_mul_id]; simp [PyNum.val]
  have hTd : ⌊(T : K) * (ss.val * ts.val) / (ss.val * ts.val)⌋ = T := by rw [mul_div_cancel_right₀ _ hpos.ne']; simp
  have h1 : stepsOf id ts ss (ss.val * ts.val) = .ok 1 := by
    rw [stepsOf_id hpos hpos.le, div_self hpos.ne']; simp
  have h2 : stepsOf id ts ss ((T : K) * (ss.val * ts.val)) = .ok (T : ℤ) := by
    rw [stepsOf_id hpos (by positivity), hTd]
  have hl : ∃ l, initTimeIntervals id geo T ts ss none none nSteps "linear" = .ok l ∧ 1 ∈ l ∧ ∀ τ ∈ l, 1 ≤ τ ∧ τ ≤ (T : ℤ) := by
    unfold initTimeIntervals
    dsimp only [maxDtOf, minDtOf]
    rw [hmax, PyNum.val_mul_id, h1]
    simp only [bind, Except.bind]
    rw [if_neg (by omega)]
    have hN1 : 1 ≤ (if nSteps > (T : ℤ) - 1 + 1 then (T : ℤ) - 1 + 1 else nSteps) := by split_ifs <;> omega
    generalize (if nSteps > (T : ℤ) - 1 + 1 then (T : ℤ) - 1 + 1 else nSteps) = N at hN1
    obtain ⟨d1, -, -⟩ := C07_degenerate_counts id geo ts ss _ _ 1 T h1 h2
    obtain ⟨k, rfl⟩ := Int.eq_ofNat_of_zero_le (show 0 ≤ N by omega)
    rcases Nat.lt_or_ge k 2 with hk | hk
    · obtain rfl : k = 1 := by omega
      refine ⟨[1], by rw [show ((1 : ℕ) : ℤ) = 1 by rfl, d1]; rfl, by simp, ?_⟩
      intro τ hτ
      simp at hτ
      omega
    · obtain ⟨l', hl, -, h0, -, -, hr, -⟩ := C07_linear_intervals geo ts ss _ rfl hpos _ _ hpos.le (by positivity) 1 T
        (by rw [div_self hpos.ne']; simp) hTd.symm (by omega) k hk
      exact ⟨l', hl, List.mem_of_getElem? h0, hr⟩
  obtain ⟨l, hl, hm, hr⟩ := hl
  have hs := (default_intervals hpos hT hl).2
  have hcast : (l.map Int.toNat).map (fun τ : ℕ => (τ : ℤ)) = l := by
    rw [List.map_map]
    conv_rhs => rw [← List.map_id l]
    apply List.map_congr_left
    intro τ hτ
    have := (hr τ hτ).1
    simp only [Function.comp, id]
    omega
  refine ⟨l.map Int.toNat, by rw [hcast, hl], List.mem_map.mpr ⟨1, hm, rfl⟩, ?_, ?_⟩
  · intro τ hτ
    obtain ⟨x, hx, rfl⟩ := List.mem_map.mp hτ
    have := hr x hx
    omega
  · rw [List.pairwise_map]
    exact hs.imp_of_mem fun {a b} ha hb hab => by have := hr a ha; have := hr b hb; omega

theorem chosen_ne {sy sp : List String} (h : ∃ s ∈ sy, s ∈ sp) : 1 ≤ (chosen sy sp).length := by
  obtain ⟨s, hs, hsp⟩ := h
  obtain ⟨i, hi, rfl⟩ := List.mem_iff_getElem.mp hs
  have : i ∈ chosen sy sp := by
    unfold chosen
    rw [List.mem_filter]
    exact ⟨by simpa using hi, by simp [hi, hsp]⟩
  exact List.length_pos_of_mem this

theorem chosen_le (sy sp : List String) : (chosen sy sp).length ≤ sy.length := by
  unfold chosen
  refine (List.length_filter_le _ _).trans (by simp)

theorem getIndices_ok {sy sp : List String} (h : ∃ s ∈ sy, s ∈ sp) : ∃ sel, getIndices sy sp none = .ok sel ∧
    sel.drift.isTuple = false := by
  cases hg : getIndices sy sp none with
  | error e =>
    exfalso
    unfold getIndices at hg
    simp only at hg
    split_ifs at hg with h0
    have hpos := chosen_ne h
    rw [positions_eq] at h0
    unfold chosen at hpos
    simp only [List.length_map] at h0
    omega
  | ok sel =>
    refine ⟨sel, rfl, ?_⟩
    unfold getIndices at hg
    simp only at hg
    split_ifs at hg
    rw [← Except.ok.inj hg]

/-- Memory for the displacement arrays is bounded by `F` windows for each of `F` intervals. -/
theorem windowBytes_le {itemsize N F : ℕ} {nat : List ℕ} (hr : ∀ τ ∈ nat, 1 ≤ τ ∧ τ ≤ F) (hs : nat.Pairwise (· < ·)) :
    windowBytes itemsize N F nat ≤ 3 * N * F * F * itemsize := by
  have hlen : nat.length ≤ F := by
    have hsub : nat ⊆ (List.range F).map (· + 1) := by
      intro τ hτ
      have := hr τ hτ
      exact List.mem_map.mpr ⟨τ - 1, by simp; omega, by omega⟩
    have := (List.subperm_of_subset (hs.imp fun h => h.ne) hsub).length_le
    simpa using this
  unfold windowBytes
  have : (nat.map fun τ => N * (F + 1 - τ) * 3 * itemsize).sum ≤ nat.length * (N * F * 3 * itemsize) := by
    have h := List.sum_le_card_nsmul (nat.map fun τ => N * (F + 1 - τ) * 3 * itemsize) (N * F * 3 * itemsize)
    rw [List.length_map, smul_eq_mul] at h
    apply h
    intro x hx
    obtain ⟨τ, hτ, rfl⟩ := List.mem_map.mp hx
    have := hr τ hτ
    gcongr
    omega
  calc _ ≤ nat.length * (N * F * 3 * itemsize) := this
    _ ≤ F * (N * F * 3 * itemsize) := Nat.mul_le_mul_right _ hlen
    _ = _ := by ring

/-- What a parser delivers for a valid trajectory. -/
structure Usable (F N : ℕ) (B : Base K) : Prop where
  nonempty : B.disp3d ≠ []
  counts : B.nO.length = B.disp3d.length
  times : B.disp3d.length ≤ B.deltaT.length
  atoms : ∀ a ∈ B.disp3d, a.n0 = N ∧ 2 ≤ a.n0 * a.n1
  several : ∀ i (h : i + 1 < B.disp3d.length), 2 ≤ B.disp3d[i].n1
  samples : 1 ≤ N ∧ ∀ x ∈ B.nO, (N : K) ≤ x

/-- The arguments select `N` of the `n` rows that the parser works on, and the framework atoms are among these rows as well. -/
def Selects (tr : Trig K) (S : Select K) (f0 : Frame K) (rest : List (Frame K)) (n N : ℕ) : Prop :=
  ∃ coords sel, selectAtoms tr f0.symbols (f0.frac :: f0.frac :: rest.map Frame.frac) S = .ok (coords, sel) ∧
    coords.length = rest.length + 2 ∧ (∀ c ∈ coords, c.length = n) ∧ sel.indices.length = N ∧ (∀ i ∈ sel.indices, ValidIdx n i) ∧
    sel.drift.isTuple = false ∧ ∀ i ∈ sel.drift.vals, ValidIdx n i

/-- The parameters ask for distinct increasing intervals within the `F` steps, and `N` rows have two disjoint windows for one of them. -/
structure OnGrid (E : Num K) (P : Params K) (F N : ℕ) : Prop where
  fl : E.fl = id
  sampling : P.sampling = "multi-origin"
  intervals : ∃ nat : List ℕ, initTimeIntervals id E.geo F P.timeStep P.stepSkip P.minDt P.maxDt P.nSteps P.spacing =
      .ok (nat.map (fun τ : ℕ => (τ : ℤ))) ∧ (∃ τ ∈ nat, 2 ≤ disjointWindows N F τ) ∧ (∀ τ ∈ nat, 1 ≤ τ ∧ τ ≤ F) ∧ nat.Pairwise (· < ·)

theorem DefaultGrid.onGrid {E : Num K} {P : Params K} (hP : DefaultGrid E P) (hn : 1 ≤ P.nSteps) {F N : ℕ} (hF : 2 ≤ F) (hN : 1 ≤ N) :
    OnGrid E P F N := by
  obtain ⟨hfl, hpos, hmn, hmx, hsp, hsm⟩ := hP
  obtain ⟨nat, hti, hone, hrange, hsorted⟩ := default_intervals_ok E.geo hpos hF hn
  refine ⟨hfl, hsm, nat, by rw [hmn, hmx, hsp, hti], ⟨1, hone, ?_⟩, hrange, hsorted⟩
  simp only [disjointWindows, Nat.div_one]
  nlinarith

theorem build_selected {E : Num K} {P : Params K} {S : Select K} {n N : ℕ} {f0 : Frame K}
    {rest : List (Frame K)} (hP : OnGrid E P (rest.length + 1) N) (hN1 : 1 ≤ N) (hS : Selects E.trig S f0 rest n N)
    (hv : ∀ f ∈ f0 :: rest, NonSingular f.latt)
    (hmem : ((3 * N * (rest.length + 1) * (rest.length + 1) * P.itemsize : ℕ) : K) ≤ P.memoryLimit * 10 ^ 9) :
    ∃ r, buildParser E P S f0 (f0.frac :: f0.frac :: rest.map Frame.frac) (f0.latt :: f0.latt :: rest.map Frame.latt) = .ok r ∧
      Usable (rest.length + 1) N (baseOf r) ∧ r.deltaInt = (P.timeStep.isInt && P.stepSkip.isInt) := by
  obtain ⟨hfl, hsm, nat, hti, ⟨τ₀, hone, htwo⟩, hrange, hsorted⟩ := hP
  obtain ⟨co, sel, hsel, hcl, hlen, hidxlen, hiv, htup, hdv⟩ := hS
  have hlatt : ∀ L ∈ f0.latt :: f0.latt :: rest.map Frame.latt, NonSingular L := by
    intro L hL
    simp only [List.mem_cons, List.mem_map] at hL
    rcases hL with rfl | rfl | ⟨f, hf, rfl⟩
    · exact hv f0 (by simp)
    · exact hv f0 (by simp)
    · exact hv f (by simp [hf])
  obtain ⟨w, disp, hdisp, hd0, hd1⟩ := (((C05_outcomes co
    (f0.latt :: f0.latt :: rest.map Frame.latt)).2.2 n (fun h => by rw [h] at hcl; simp at hcl) hlen).2 hlatt).2 (by rw [hcl]; simp)
  have hd1' : disp.n1 = rest.length + 1 := by rw [hd1]; omega
  have hdr : ∃ dc, correctDriftSeq sel.drift disp = .ok dc := by
    unfold correctDriftSeq
    rw [htup]
    simp only [Bool.false_and, Bool.false_eq_true, ↓reduceIte]
    unfold correctDrift
    split_ifs
    · rw [rows_ok (by rw [hd0]; exact hdv)]
      exact ⟨_, rfl⟩
    · exact ⟨_, rfl⟩
  obtain ⟨dc, hdc⟩ := hdr
  obtain ⟨e0, e1, -, -⟩ := correctDriftSeq_inv hdc
  have hgd := getDisps_multi E.fl (E.fl (1 / 10 ^ 9)) P.itemsize P.timeStep P.stepSkip sel.indices P.memoryLimit nat dc
    (by rw [e0, hd0]; exact hiv) (by rw [e1, hd1']; exact hrange)
  have hlim : ¬ P.memoryLimit < E.fl ((windowBytes P.itemsize sel.indices.length dc.n1 nat : K) * E.fl (1 / 10 ^ 9)) := by
    rw [hfl, not_lt]
    simp only [id]
    rw [mul_one_div, div_le_iff₀ (by positivity)]
    refine le_trans ?_ hmem
    rw [hidxlen, e1, hd1']
    norm_cast
    exact windowBytes_le hrange hsorted
  rw [if_neg hlim, ← hsm] at hgd
  have hinit : parserInit E P w disp sel = .ok { warned := w, timeStep := P.timeStep, stepSkip := P.stepSkip, indices := sel.indices, drift := sel.drift.vals, coordsCheck := [], dc := dc, intervals := nat.map (fun τ : ℕ => (τ : ℤ)), deltaT := nat.map fun τ : ℕ => (deltaTOf E.fl P.timeStep P.stepSkip τ).val, deltaInt := P.timeStep.isInt && P.stepSkip.isInt, disp3d := (keptPairs E.fl sel.indices ((nat.map fun τ : ℕ => (τ : ℤ)).getLastD 0) dc nat).map Prod.fst, nO := (keptPairs E.fl sel.indices ((nat.map fun τ : ℕ => (τ : ℤ)).getLastD 0) dc nat).map Prod.snd, volume := none } := by
    unfold parserInit
    simp only [bind, Except.bind]
    rw [hdc]
    simp only
    rw [e1, hd1', hfl, hti]
    simp only
    rw [hfl] at hgd
    rw [hgd]
  have hbuild : ∃ r, buildParser E P S f0 (f0.frac :: f0.frac :: rest.map Frame.frac) (f0.latt :: f0.latt :: rest.map Frame.latt) = .ok r := by
    unfold buildParser
    rw [hsel]
    simp only [bind, Except.bind]
    rw [hdisp]
    simp only
    rw [hinit]
    exact ⟨_, rfl⟩
  obtain ⟨r, hr⟩ := hbuild
  have hr' := hr
  obtain ⟨c', sel', w', disp', r0, g1, g2, g3, g4⟩ := buildParser_inv hr
  rw [hsel] at g1
  simp only [Except.ok.injEq, Prod.mk.injEq] at g1
  obtain ⟨rfl, rfl⟩ := g1
  rw [hdisp] at g2
  simp only [Except.ok.injEq, Prod.mk.injEq] at g2
  obtain ⟨rfl, rfl⟩ := g2
  rw [hinit] at g3
  obtain rfl := Except.ok.inj g3
  have hint : r.intervals = nat.map (fun τ : ℕ => (τ : ℤ)) := by rw [g4]
  obtain ⟨coords, sel2, n2, p, nat2, a1, a2, a3, a4, a5, a6, a7, a8, a9, a10, a11, a12⟩ := buildParser_windows hsm hr (by
    rw [hint]
    intro τ hτ
    obtain ⟨t, ht, rfl⟩ := List.mem_map.mp hτ
    exact_mod_cast (hrange t ht).1)
  obtain rfl : nat = nat2 := (List.map_injective_iff.mpr fun x y hxy => by exact_mod_cast hxy) (hint.symm.trans a8)
  have hidx : sel2.indices = sel.indices := by rw [← a7, g4]
  rw [hidx] at a12
  simp only [List.length_map] at a12
  rw [hidxlen] at a12
  have hkept : ∀ τ ∈ nat.filter (fun τ => decide (2 ≤ disjointWindows N (rest.length + 1) τ)),
      1 ≤ τ ∧ τ ≤ rest.length + 1 ∧ 2 ≤ disjointWindows N (rest.length + 1) τ := by
    intro τ hτ
    obtain ⟨b1, b2⟩ := List.mem_filter.mp hτ
    exact ⟨(hrange τ b1).1, (hrange τ b1).2, by simpa using b2⟩
  have hl := a12.length_eq
  have hatom : ∀ i (hi : i < r.disp3d.length), ∃ τ, ∃ (hi' : i < (nat.filter (fun τ => decide (2 ≤ disjointWindows N (rest.length + 1) τ))).length),
      τ = (nat.filter (fun τ => decide (2 ≤ disjointWindows N (rest.length + 1) τ)))[i] ∧
      r.disp3d[i].n0 = N ∧ r.disp3d[i].n1 = rest.length + 1 + 1 - τ := by
    intro i hi
    obtain ⟨b1, b2, -⟩ := (List.forall₂_iff_get.mp a12).2 i (by omega) hi
    refine ⟨_, by omega, rfl, ?_, ?_⟩
    · simpa [hidxlen] using b1
    · simpa using b2
  refine ⟨r, hr, ⟨?_, ?_, ?_, ?_, ?_, hN1, ?_⟩, by rw [g4]⟩
  · intro h0
    have h1 : τ₀ ∈ nat.filter (fun τ => decide (2 ≤ disjointWindows N (rest.length + 1) τ)) := by
      rw [List.mem_filter]
      exact ⟨hone, decide_eq_true htwo⟩
    have : r.disp3d = [] := h0
    rw [this, List.length_nil] at hl
    have := List.length_pos_of_mem h1
    omega
  · show r.nO.length = r.disp3d.length
    rw [g4]
    simp
  · show r.disp3d.length ≤ r.deltaT.length
    rw [← hl, g4]
    simp only [List.length_map]
    exact List.length_filter_le _ _
  · intro a ha
    obtain ⟨i, hi, rfl⟩ := List.mem_iff_getElem.mp ha
    obtain ⟨τ, hi', rfl, b1, b2⟩ := hatom i hi
    refine ⟨b1, ?_⟩
    have hb1 : (baseOf r).disp3d[i] = r.disp3d[i] := rfl
    rw [hb1, b1, b2]
    obtain ⟨c1, c2, c3⟩ := hkept _ (List.getElem_mem hi')
    have hdiv := disjoint_le_windows c1 c2
    have := Nat.mul_le_mul_left N hdiv
    unfold disjointWindows at c3
    refine c3.trans (this.trans (le_of_eq ?_))
    congr 1
    omega
  · intro i hi1
    have hi1 : i + 1 < r.disp3d.length := hi1
    obtain ⟨τ, hi', rfl, b1, b2⟩ := hatom i (by omega)
    show 2 ≤ r.disp3d[i].n1
    rw [b2]
    have hks := hsorted.sublist (List.filter_sublist (p := fun τ => decide (2 ≤ disjointWindows N (rest.length + 1) τ)) (l := nat))
    have hlt := List.pairwise_iff_getElem.mp hks i (i + 1) hi' (by omega) (by omega)
    have hle := (hkept _ (List.getElem_mem (n := i + 1) (by omega))).2.1
    omega
  · intro x hx
    have hx' : x ∈ (keptPairs E.fl sel.indices ((nat.map fun τ : ℕ => (τ : ℤ)).getLastD 0) dc nat).map Prod.snd := by
      have : x ∈ r.nO := hx
      rw [g4] at this
      exact this
    simp only [keptPairs, List.map_map, List.mem_map, List.mem_filter] at hx'
    obtain ⟨τ, ⟨hτ, -⟩, rfl⟩ := hx'
    have hτ1 := (hrange τ hτ).1
    obtain ⟨last, hlast⟩ : ∃ last, nat.getLast? = some last := by
      cases h : nat.getLast? with
      | none => rw [List.getLast?_eq_none_iff] at h; rw [h] at hτ; simp at hτ
      | some x => exact ⟨x, rfl⟩
    have hl2 : (nat.map fun τ : ℕ => (τ : ℤ)).getLastD 0 = (last : ℤ) := by
      rw [List.getLastD_eq_getLast?, List.getLast?_map, hlast]; rfl
    have hle : τ ≤ last := by
      obtain ⟨ys, hys⟩ := List.getLast?_eq_some_iff.1 hlast
      rw [hys, List.pairwise_append] at hsorted
      rw [hys, List.mem_append, List.mem_singleton] at hτ
      rcases hτ with hm | rfl
      · exact (hsorted.2.2 τ hm last (by simp)).le
      · exact le_rfl
    simp only [Function.comp, hl2, hfl, id, hidxlen]
    have h0 : (0 : K) < τ := by exact_mod_cast hτ1
    push_cast
    rw [le_div_iff₀ h0]
    gcongr

theorem build_ok {E : Num K} {P : Params K} {S : Select K} {sp : List String} (hS : S.specie = some sp)
    (hfr : S.framework = none) (hP : DefaultGrid E P) (hn : 1 ≤ P.nSteps) {n : ℕ} {f0 : Frame K} {rest : List (Frame K)}
    (hF : 1 ≤ rest.length) (hv : ∀ f ∈ f0 :: rest, ValidFrame n sp f)
    (hmem : ((3 * n * (rest.length + 1) * (rest.length + 1) * P.itemsize : ℕ) : K) ≤ P.memoryLimit * 10 ^ 9) :
    ∃ r, buildParser E P S f0 (f0.frac :: f0.frac :: rest.map Frame.frac) (f0.latt :: f0.latt :: rest.map Frame.latt) = .ok r ∧
      Usable (rest.length + 1) (chosen f0.symbols sp).length (baseOf r) ∧
      r.deltaInt = (P.timeStep.isInt && P.stepSkip.isInt) := by
  obtain ⟨v1, v2, v3, v4⟩ := hv f0 (by simp)
  obtain ⟨sel, hsel, htup⟩ := getIndices_ok v4
  obtain ⟨hci, hcd⟩ := getIndices_chosen hsel
  have hvalid : ∀ l : List ℕ, (∀ i ∈ l, i < f0.symbols.length) → ∀ d ∈ l.map (fun k : ℕ => (k : ℤ)), ValidIdx n d := by
    intro l hl d hd
    obtain ⟨i, hi, rfl⟩ := List.mem_map.mp hd
    have := hl i hi
    constructor <;> omega
  refine build_selected (n := n) (hP.onGrid hn (by omega) (chosen_ne v4)) (chosen_ne v4) ⟨f0.frac :: f0.frac :: rest.map Frame.frac, sel, ?_, by simp, ?_, by rw [hci, List.length_map],
    by rw [hci]; exact hvalid _ fun i hi => mem_chosen hi, htup, by rw [hcd]; exact hvalid _ fun i hi => mem_others hi⟩
    (fun f hf => (hv f hf).2.2.1) (le_trans ?_ hmem)
  · unfold selectAtoms
    rw [hS]
    dsimp only
    rw [hfr, hsel]
    rfl
  · intro c hc
    simp only [List.mem_cons, List.mem_map] at hc
    rcases hc with rfl | rfl | ⟨f, hf, rfl⟩
    · exact v2
    · exact v2
    · exact (hv f (by simp [hf])).2.1
  · have hNn : (chosen f0.symbols sp).length ≤ n := v1 ▸ chosen_le _ _
    norm_cast
    gcongr

theorem cons_of_two {fr : List (Frame K)} (h : 2 ≤ fr.length) : ∃ f0 rest, fr = f0 :: rest ∧ 1 ≤ rest.length ∧
    fr.length = rest.length + 1 := by
  cases fr with
  | nil => simp at h
  | cons f0 rest => exact ⟨f0, rest, rfl, by simpa using h, rfl⟩

/-- `_from_ase` accepts a valid trajectory. -/
theorem ase_ok {E : Num K} {P : Params K} {S : Select K} {sp : List String} (hS : S.specie = some sp)
    (hfr : S.framework = none) (hP : DefaultGrid E P) (hn : 1 ≤ P.nSteps) {n : ℕ} {fr : List (Frame K)} (hF : 2 ≤ fr.length)
    (hv : ∀ f ∈ fr, ValidFrame n sp f)
    (hmem : ((3 * n * fr.length * fr.length * P.itemsize : ℕ) : K) ≤ P.memoryLimit * 10 ^ 9) :
    ∃ B N, fromAse E P S 1 none (.one fr) = .ok B ∧ Usable fr.length N B ∧ ∀ f0, fr.head? = some f0 → N = (chosen f0.symbols sp).length := by
  obtain ⟨f0, rest, rfl, hr, hl⟩ := cons_of_two hF
  rw [hl] at hmem ⊢
  obtain ⟨r, hb, hu, -⟩ := build_ok hS hfr hP hn hr hv hmem
  refine ⟨baseOf r, _, ?_, hu, fun f hf0 => by obtain rfl := Option.some.inj hf0; rfl⟩
  unfold fromAse analyzerFrom
  simp only [Traj.asOne, bind, Except.bind, aseParser, pyStride_one, structureCoordsLatt, List.map_cons]
  rw [hb]

theorem defaultGrid_mul {E : Num K} {P : Params K} (hP : DefaultGrid E P) :
    DefaultGrid E { P with stepSkip := P.stepSkip.mul E.fl (.int 1) } := by
  obtain ⟨a, b, c⟩ := hP
  refine ⟨a, ?_, c⟩
  dsimp only
  rw [a, PyNum.val_mul_id]
  simpa [PyNum.val] using b

/-- `_from_pymatgen` accepts a valid trajectory, unless `time_step` and `step_skip` are both integers. -/
theorem pymatgen_ok {E : Num K} {P : Params K} {S : Select K} {sp : List String} (hS : S.specie = some sp)
    (hfr : S.framework = none) (hP : DefaultGrid E P) (hn : 1 ≤ P.nSteps) (hf : (P.timeStep.isInt && P.stepSkip.isInt) = false)
    {n : ℕ} {fr : List (Frame K)} (hF : 2 ≤ fr.length) (hv : ∀ f ∈ fr, ValidFrame n sp f)
    (hmem : ((3 * n * fr.length * fr.length * P.itemsize : ℕ) : K) ≤ P.memoryLimit * 10 ^ 9) :
    ∃ B N, fromPymatgen E P S 1 none (.one fr) = .ok B ∧ Usable fr.length N B ∧
      ∀ f0, fr.head? = some f0 → N = (chosen f0.symbols sp).length := by
  obtain ⟨f0, rest, rfl, hr, hl⟩ := cons_of_two hF
  rw [hl] at hmem ⊢
  obtain ⟨r, hb, hu, hi⟩ := build_ok hS hfr (defaultGrid_mul hP) hn hr hv hmem
  have hi' : r.deltaInt = false := by
    rw [hi]
    dsimp only
    cases hs : P.stepSkip <;> rw [hs] at hf
    · simpa [PyNum.mul, PyNum.isInt] using hf
    · simp [PyNum.mul, PyNum.isInt]
  refine ⟨baseOf { r with deltaT := r.deltaT.map fun t => E.fl (t * E.fl (1 / 10 ^ 3)) }, _, ?_, ?_, fun f hf0 => by obtain rfl := Option.some.inj hf0; rfl⟩
  · unfold fromPymatgen analyzerFrom
    simp only [Traj.asOne, bind, Except.bind, pymatgenParser, pyStride_one, structureCoordsLatt, List.map_cons]
    rw [hb]
    simp only
    rw [hi']
    rfl
  · obtain ⟨h1, h2, h3, h4, h5, h6⟩ := hu
    refine ⟨h1, h2, ?_, h4, h5, h6⟩
    simpa [baseOf] using h3

/-- `_from_universe` accepts a valid trajectory. -/
theorem universe_ok {E : Num K} {P : Params K} {S : Select K} {sp : List String} (hS : S.specie = some sp)
    (hfr : S.framework = none) (hP : DefaultGrid E P) (hn : 1 ≤ P.nSteps) {n : ℕ} {types : List String} {fr : List (MdaFrame K)}
    (hF : 2 ≤ fr.length) (ht : types.length = n) (hsp : ∃ s ∈ types, s ∈ sp)
    (hv : ∀ f ∈ fr, f.pos.length = n ∧ NonSingular f.latt)
    (hmem : ((3 * n * fr.length * fr.length * P.itemsize : ℕ) : K) ≤ P.memoryLimit * 10 ^ 9) :
    ∃ B, fromUniverse E P S 1 1 none (.one (types, fr)) = .ok B ∧ Usable fr.length (chosen types sp).length B := by
  have hdet : ∀ f ∈ fr, det3 f.latt ≠ 0 := fun f hf => by rw [det3_eq_det]; exact (hv f hf).2
  have hread : fr.mapM (mdaFrame types 1) = .ok (fr.map fun f : MdaFrame K =>
      (⟨types, f.pos.map fun x => vm x (invFun f.latt), f.latt, f.volume⟩ : Frame K)) := by
    apply mapM_except_ok
    intro f hf
    unfold mdaFrame
    simp only [pyStride_one, bind, Except.bind, inv3_ok (hdet f hf)]
  obtain ⟨f0, rest, hw, hr, hl⟩ := cons_of_two (fr := fr.map fun f : MdaFrame K =>
      (⟨types, f.pos.map fun x => vm x (invFun f.latt), f.latt, f.volume⟩ : Frame K)) (by simpa using hF)
  rw [List.length_map] at hl
  rw [hl] at hmem ⊢
  have hall : ∀ f ∈ f0 :: rest, ValidFrame n sp f ∧ f.symbols = types := by
    rw [← hw]
    intro f hf
    obtain ⟨x, hx, rfl⟩ := List.mem_map.mp hf
    exact ⟨⟨ht, by simpa using (hv x hx).1, (hv x hx).2, hsp⟩, rfl⟩
  obtain ⟨r, hb, hu, -⟩ := build_ok hS hfr (defaultGrid_mul hP) hn hr (fun f hf => (hall f hf).1) hmem
  rw [(hall f0 (by simp)).2] at hu
  refine ⟨baseOf r, ?_, hu⟩
  unfold fromUniverse analyzerFrom
  simp only [Traj.asOne, bind, Except.bind, mdaParser, ne_eq, not_true_eq_false, decide_false, Bool.false_and, Bool.false_eq_true,
    ↓reduceIte, pyStride_one]
  rw [hread, hw]
  simp only [structureCoordsLatt, List.map_cons]
  rw [hb]

/-- The three analyzers can be built on a usable object. -/
theorem analyzers_ok {F N : ℕ} {B : Base K} (hB : Usable F N B) (sq : K → K) (o : Oracle K G) (g : G) (U : UncParams K)
    (ho : StatisticsRun o U.opt) (hsub : 1 ≤ U.sub) (hd : U.dimension.toLower ∈ acceptedDims) :
    (∃ b g', msdBootstrap sq o U.opt g B.deltaT B.disp3d B.nO U.sub U.dimension = .ok (b, g') ∧ (U.opt.bootstrap = false → g' = g)) ∧
    (∃ b g', mstdBootstrap sq o U.opt g B.deltaT B.disp3d B.nO U.sub U.dimension = .ok (b, g') ∧ (U.opt.bootstrap = false → g' = g)) ∧
    ∀ charge : Charge K, (∀ l, charge = .array l → l.length = N) →
      ∃ b g', mscdBootstrap sq o U.opt g B.deltaT B.disp3d charge B.nO U.sub U.dimension = .ok (b, g') ∧
        (U.opt.bootstrap = false → g' = g) := by
  obtain ⟨hne, hc, ht, ha, hh, hN1, hno⟩ := hB
  obtain ⟨k, hk, hk1⟩ : ∃ k : ℕ, U.sub = (k : ℤ) ∧ 0 < k := ⟨U.sub.toNat, by omega, by omega⟩
  have hst : ∀ {α : Type} (l : List α), pyStride U.sub l = .ok (stride k l) := by
    intro α l
    unfold pyStride
    rw [hk, if_neg (by omega), if_pos (by omega)]
    rfl
  obtain ⟨d0, hd0⟩ : ∃ d0, B.disp3d.head? = some d0 := by
    cases hd : B.disp3d with
    | nil => exact absurd hd hne
    | cons d rest => exact ⟨d, rfl⟩
  obtain ⟨sel, hsel⟩ : ∃ sel, dimensionSlice U.dimension = .ok sel := by
    obtain ⟨b0, hb0, -⟩ := (C27_dimension B.deltaT B.disp3d B.nO U.dimension hne).1 hd
    obtain ⟨-, -, sel, -, -, -, e3, -⟩ := bootInit_inv hb0
    exact ⟨sel, e3⟩
  obtain ⟨b0, hb0⟩ : ∃ b0, bootInit B.deltaT B.disp3d B.nO U.sub U.dimension = .ok b0 := by
    unfold bootInit
    simp only [bind, Except.bind, hst]
    have : stride k B.disp3d ≠ [] := by
      intro h
      have := stride_getElem? k hk1 B.disp3d 0
      rw [h, Nat.mul_zero, List.head?_eq_getElem?.symm.trans hd0] at this
      simp at this
    cases hs : stride k B.disp3d with
    | nil => exact absurd hs this
    | cons x xs =>
      simp only
      rw [hsel]
      exact ⟨_, rfl⟩
  obtain ⟨ds, dts, sel', d0', e1, e2, e3, e4, hb0'⟩ := bootInit_inv hb0
  rw [hst] at e1 e2
  obtain rfl := Except.ok.inj e1
  obtain rfl := Except.ok.inj e2
  have hget := stride_getElem? k hk1 B.disp3d
  have hgetT := stride_getElem? k hk1 B.deltaT
  have hle : (stride k B.disp3d).length ≤ B.disp3d.length := by
    by_contra hlt
    have := hget B.disp3d.length
    rw [List.getElem?_eq_getElem (by omega), List.getElem?_eq_none (by nlinarith)] at this
    cases this
  have hleT : (stride k B.disp3d).length ≤ (stride k B.deltaT).length := by
    by_contra hlt
    have h1 := hget (stride k B.deltaT).length
    have h2 := hgetT (stride k B.deltaT).length
    rw [List.getElem?_eq_none (le_refl _)] at h2
    rw [List.getElem?_eq_getElem (by omega)] at h1
    have h3 := List.getElem?_eq_none_iff.1 h2.symm
    have h4 := (List.getElem?_eq_some_iff.1 h1.symm).1
    omega
  have hmem : ∀ i (hi : i < (stride k B.disp3d).length), (stride k B.disp3d)[i] ∈ B.disp3d := fun i hi => stride_mem (List.getElem_mem hi)
  have hhalf : ∀ i (hi : i < (stride k B.disp3d).length), i < (stride k B.disp3d).length / 2 → 2 ≤ (stride k B.disp3d)[i].n1 := by
    intro i hi h2
    have h1 := hget i
    have h3 := hget (i + 1)
    rw [List.getElem?_eq_getElem hi] at h1
    rw [List.getElem?_eq_getElem (show i + 1 < (stride k B.disp3d).length by omega)] at h3
    obtain ⟨h4, h5⟩ := List.getElem?_eq_some_iff.1 h1.symm
    obtain ⟨h6, -⟩ := List.getElem?_eq_some_iff.1 h3.symm
    rw [← h5]
    apply hh
    nlinarith
  have hN0 : (0 : K) < N := by exact_mod_cast hN1
  have h1N : (1 : K) ≤ N := by exact_mod_cast hN1
  have heff : ∀ (i : ℕ) (hi : i < (stride k B.disp3d).length) (no : K), B.nO[i]? = some no →
      ∃ e, npDiv (some no) (some (((stride k B.disp3d)[i].n0 : ℕ) : K)) = some e ∧ 1 ≤ e := by
    intro i hi no h
    rw [(ha _ (hmem i hi)).1]
    refine ⟨no / N, by simp [npDiv, hN0.ne'], ?_⟩
    rw [le_div_iff₀ hN0, one_mul]
    exact hno no (List.mem_of_getElem? h)
  refine ⟨?_, ?_, ?_⟩
  · unfold msdBootstrap
    rw [hb0]
    simp only [bind, Except.bind]
    apply observeAll_runs ho (bootInit_empty hb0) (P := (stride k B.disp3d).length) (by omega) (by rw [hb0']; exact hleT)
    intro i hi
    rw [hb0'] at hi ⊢
    dsimp only at hi ⊢
    refine ⟨(stride k B.disp3d)[i], _, List.getElem?_eq_getElem hi, rfl, ?_, ?_⟩
    · rw [dSquared_length]
      simp only [hi, iff_true]
      exact (ha _ (hmem i hi)).2
    · intro no h
      exact ⟨no, rfl, h1N.trans (hno no (List.mem_of_getElem? h))⟩
  · unfold mstdBootstrap
    rw [hb0]
    simp only [bind, Except.bind]
    apply observeAll_runs ho (bootInit_empty hb0) (P := (stride k B.disp3d).length / 2) (by omega) (by rw [hb0']; dsimp only; omega)
    intro i hi
    rw [hb0'] at hi ⊢
    dsimp only at hi ⊢
    have hi' : i < (stride k B.disp3d).length := by omega
    refine ⟨(stride k B.disp3d)[i], _, List.getElem?_eq_getElem hi', rfl, ?_, heff i hi'⟩
    rw [collMotion_length]
    simp only [hi, iff_true]
    exact hhalf i hi' hi
  · intro charge hq
    unfold mscdBootstrap
    rw [hb0]
    simp only [bind, Except.bind]
    have hhead : ((b0.displacements.map Arr3.n0).headD 0) = N := by
      rw [hb0']
      dsimp only
      cases hd : stride k B.disp3d with
      | nil => rw [hd] at e4; cases e4
      | cons d rest => exact (ha d (stride_mem (k := k) (by rw [hd]; simp))).1
    rw [hhead]
    have hlen : (charge.expand N).length = N := by
      cases hcc : charge with
      | scalar q => simp [Charge.expand]
      | array l => exact hq l hcc
    apply observeAll_runs ho (bootInit_empty hb0) (P := (stride k B.disp3d).length / 2) (by omega) (by rw [hb0']; dsimp only; omega)
    intro i hi
    rw [hb0'] at hi ⊢
    dsimp only at hi ⊢
    have hi' : i < (stride k B.disp3d).length := by omega
    refine ⟨(stride k B.disp3d)[i], _, List.getElem?_eq_getElem hi', chgMotion_eq (by rw [hlen, (ha _ (hmem i hi')).1]), ?_, heff i hi'⟩
    simp only [List.length_map, List.length_range, hi, iff_true]
    exact hhalf i hi' hi

theorem diffusion_built {B : Base K} {base : PyM (Base K)} (hb : base = .ok B) {sq : K → K} {o : Oracle K G} {g : G} {U : UncParams K}
    {R : G → Prop} (h : ∃ b g', msdBootstrap sq o U.opt g B.deltaT B.disp3d B.nO U.sub U.dimension = .ok (b, g') ∧ R g') :
    ∃ Z g', diffusionAnalyzer sq o g U base = .ok (Z, g') ∧ R g' := by
  obtain ⟨b, g', h, hR⟩ := h
  unfold diffusionAnalyzer
  rw [hb]
  simp only [bind, Except.bind]
  rw [h]
  exact ⟨_, _, rfl, hR⟩

theorem jump_built {B : Base K} {base : PyM (Base K)} (hb : base = .ok B) {sq : K → K} {o : Oracle K G} {g : G} {U : UncParams K}
    {R : G → Prop} (h : ∃ b g', mstdBootstrap sq o U.opt g B.deltaT B.disp3d B.nO U.sub U.dimension = .ok (b, g') ∧ R g') :
    ∃ Z g', jumpAnalyzer sq o g U base = .ok (Z, g') ∧ R g' := by
  obtain ⟨b, g', h, hR⟩ := h
  unfold jumpAnalyzer
  rw [hb]
  simp only [bind, Except.bind]
  rw [h]
  exact ⟨_, _, rfl, hR⟩

theorem conductivity_built {B : Base K} {base : PyM (Base K)} (hb : base = .ok B) {sq : K → K} {o : Oracle K G} {g : G} {U : UncParams K}
    {charge : Charge K} {R : G → Prop}
    (h : ∃ b g', mscdBootstrap sq o U.opt g B.deltaT B.disp3d charge B.nO U.sub U.dimension = .ok (b, g') ∧ R g') :
    ∃ Z g', conductivityAnalyzer sq o g U charge base = .ok (Z, g') ∧ R g' := by
  obtain ⟨b, g', h, hR⟩ := h
  unfold conductivityAnalyzer
  rw [hb]
  simp only [bind, Except.bind]
  rw [h]
  exact ⟨_, _, rfl, hR⟩

/-- All three analyzers are built without an exception from `base`, and without touching the random number generator if no resampling is
asked for; charges are a number or one per atom, of `N` atoms. -/
def AllAnalyzed (N : ℕ) (sq : K → K) (o : Oracle K G) (g : G) (U : UncParams K) (base : PyM (Base K)) : Prop :=
  (∃ Z g', diffusionAnalyzer sq o g U base = .ok (Z, g') ∧ (U.opt.bootstrap = false → g' = g)) ∧
  (∃ Z g', jumpAnalyzer sq o g U base = .ok (Z, g') ∧ (U.opt.bootstrap = false → g' = g)) ∧
    ∀ charge : Charge K, (∀ l, charge = .array l → l.length = N) →
      ∃ Z g', conductivityAnalyzer sq o g U charge base = .ok (Z, g') ∧ (U.opt.bootstrap = false → g' = g)

theorem allAnalyzed_of_usable {F N : ℕ} {B : Base K} (hB : Usable F N B) {base : PyM (Base K)} (hb : base = .ok B) {sq : K → K}
    {o : Oracle K G} {g : G} {U : UncParams K} (ho : StatisticsRun o U.opt) (hsub : 1 ≤ U.sub)
    (hd : U.dimension.toLower ∈ acceptedDims) : AllAnalyzed N sq o g U base := by
  obtain ⟨h1, h2, h3⟩ := analyzers_ok hB sq o g U ho hsub hd
  exact ⟨diffusion_built hb h1, jump_built hb h2, fun charge hq => conductivity_built hb (h3 charge hq)⟩

/-- **C79 (ASE).** At least two frames with the same number of atoms, cells that have a volume, an atom of the chosen species, default
bounds of the intervals, at least one interval asked for, and a memory limit that admits `F²` windows: all three analyzers are
built. -/
theorem C79_ase (E : Num K) (P : Params K) (S : Select K) (sp : List String) (hS : S.specie = some sp) (hfr : S.framework = none)
    (hP : DefaultGrid E P) (hn : 1 ≤ P.nSteps) (n : ℕ) (f0 : Frame K) (rest : List (Frame K)) (hF : 1 ≤ rest.length)
    (hv : ∀ f ∈ f0 :: rest, ValidFrame n sp f)
    (hmem : ((3 * n * (rest.length + 1) * (rest.length + 1) * P.itemsize : ℕ) : K) ≤ P.memoryLimit * 10 ^ 9)
    (sq : K → K) (o : Oracle K G) (g : G) (U : UncParams K) (ho : StatisticsRun o U.opt)
    (hsub : 1 ≤ U.sub) (hd : U.dimension.toLower ∈ acceptedDims) :
    AllAnalyzed (chosen f0.symbols sp).length sq o g U (fromAse E P S 1 none (.one (f0 :: rest))) := by
  obtain ⟨B, N, hb, hu, hN⟩ := ase_ok hS hfr hP hn (fr := f0 :: rest) (by simp; omega) hv hmem
  rw [hN f0 rfl] at hu
  exact allAnalyzed_of_usable hu hb ho hsub hd

/-- **C79 (pymatgen), what holds.** The same, if `time_step` or `step_skip` is not an integer.  Missing: with two integers the parser
raises (`C19_violated_pymatgen`). -/
theorem C79_pymatgen_partial (E : Num K) (P : Params K) (S : Select K) (sp : List String) (hS : S.specie = some sp) (hfr : S.framework = none)
    (hP : DefaultGrid E P) (hn : 1 ≤ P.nSteps) (hi : (P.timeStep.isInt && P.stepSkip.isInt) = false) (n : ℕ) (f0 : Frame K)
    (rest : List (Frame K)) (hF : 1 ≤ rest.length) (hv : ∀ f ∈ f0 :: rest, ValidFrame n sp f)
    (hmem : ((3 * n * (rest.length + 1) * (rest.length + 1) * P.itemsize : ℕ) : K) ≤ P.memoryLimit * 10 ^ 9)
    (sq : K → K) (o : Oracle K G) (g : G) (U : UncParams K) (ho : StatisticsRun o U.opt)
    (hsub : 1 ≤ U.sub) (hd : U.dimension.toLower ∈ acceptedDims) :
    AllAnalyzed (chosen f0.symbols sp).length sq o g U (fromPymatgen E P S 1 none (.one (f0 :: rest))) := by
  obtain ⟨B, N, hb, hu, hN⟩ := pymatgen_ok hS hfr hP hn hi (fr := f0 :: rest) (by simp; omega) hv hmem
  rw [hN f0 rfl] at hu
  exact allAnalyzed_of_usable hu hb ho hsub hd

/-- **C79 (MDAnalysis).** -/
theorem C79_mda (E : Num K) (P : Params K) (S : Select K) (sp : List String) (hS : S.specie = some sp) (hfr : S.framework = none)
    (hP : DefaultGrid E P) (hn : 1 ≤ P.nSteps) (n : ℕ) (types : List String) (fr : List (MdaFrame K)) (hF : 2 ≤ fr.length)
    (ht : types.length = n) (hsp : ∃ s ∈ types, s ∈ sp) (hv : ∀ f ∈ fr, f.pos.length = n ∧ NonSingular f.latt)
    (hmem : ((3 * n * fr.length * fr.length * P.itemsize : ℕ) : K) ≤ P.memoryLimit * 10 ^ 9)
    (sq : K → K) (o : Oracle K G) (g : G) (U : UncParams K) (ho : StatisticsRun o U.opt)
    (hsub : 1 ≤ U.sub) (hd : U.dimension.toLower ∈ acceptedDims) :
    AllAnalyzed (chosen types sp).length sq o g U (fromUniverse E P S 1 1 none (.one (types, fr))) := by
  obtain ⟨B, hb, hu⟩ := universe_ok hS hfr hP hn hF ht hsp hv hmem
  exact allAnalyzed_of_usable hu hb ho hsub hd

/-- **C79, violated for pymatgen.** The same trajectory, with a time step of 2 fs given as the integer 2, is rejected. -/
theorem C79_violated : (∃ Z, diffusionAnalyzer id (exOracle ℚ) () exUnc (fromPymatgen exNum exParams exSelect 1 none (.one exTraj)) =
      .ok Z) ∧
    diffusionAnalyzer id (exOracle ℚ) () exUnc (fromPymatgen exNum { exParams with timeStep := .int 2 } exSelect 1 none (.one exTraj)) =
      .error .ufuncTypeError := by
  constructor
  · have h : (diffusionAnalyzer id (exOracle ℚ) () exUnc
        (fromPymatgen exNum exParams exSelect 1 none (.one exTraj))).toOption.isSome = true := by decide +kernel
    exact ok_of_isSome h
  · cases h : diffusionAnalyzer id (exOracle ℚ) () exUnc
        (fromPymatgen exNum { exParams with timeStep := .int 2 } exSelect 1 none (.one exTraj)) with
    | ok z =>
      have h2 : (diffusionAnalyzer id (exOracle ℚ) () exUnc
        (fromPymatgen exNum { exParams with timeStep := .int 2 } exSelect 1 none (.one exTraj))).toOption.isSome = false := by
        decide +kernel
      rw [h] at h2
      cases h2
    | error e =>
      have h2 : (match diffusionAnalyzer id (exOracle ℚ) () exUnc
        (fromPymatgen exNum { exParams with timeStep := .int 2 } exSelect 1 none (.one exTraj)) with
        | .error e => decide (e = .ufuncTypeError)
        | .ok _ => false) = true := by decide +kernel
      rw [h] at h2
      simpa using h2

example : ((3 * 3 * 5 * 5 * exParams.itemsize : ℕ) : ℚ) ≤ exParams.memoryLimit * 10 ^ 9 := by decide +kernel

example : exTraj.length = 5 ∧ exUnc.dimension.toLower ∈ acceptedDims := by decide +kernel

theorem exTraj_valid : ∀ f ∈ exTraj, ValidFrame 3 ["Li"] f := by
  intro f hf
  obtain ⟨j, -, rfl⟩ := List.mem_map.mp hf
  refine ⟨rfl, rfl, ?_, "Li", by simp [exFrame], by simp⟩
  unfold NonSingular
  rw [← det3_eq_det]
  show det3 exBox ≠ 0
  decide +kernel

/-- A generator that counts, a `normaltest` that raises below eight values and a `pyblock` that raises below two. -/
def exStrict : Oracle ℚ ℕ :=
  { draws := fun g m n => (fun j => ⟨(g + j) % (m + 1), Nat.mod_lt _ (Nat.succ_pos _)⟩, g + 1), dirichlet := fun g k a => (fun _ => 1, g),
    category := fun g m => (0, g), normaltest := fun l => if l.length < 8 then .error .valueError else .ok none,
    reblock := fun l => if l.length < 2 then .error .valueError else .ok (5, 7) }

/-- Resampling, block averaging and every second interval. -/
def exUncAll : UncParams ℚ := { opt := { bootstrap := true, block := true, nResamples := 8, alpha := 1 }, sub := 2, dimension := "xY" }

theorem exUncAll_runs : StatisticsRun exStrict exUncAll.opt := by
  refine ⟨fun _ => ⟨le_refl 8, fun l hl => ⟨none, ?_⟩⟩, fun _ l hl => ⟨(5, 7), ?_⟩⟩
  · exact if_neg (by omega)
  · exact if_neg (by omega)

/-- `C79_ase` and `C79_pymatgen_partial` for the five frames of `exTraj`, with resampling, block averaging and every second interval. -/
example : AllAnalyzed 2 id exStrict 0 exUncAll (fromAse exNum exParams exSelect 1 none (.one exTraj)) ∧
    AllAnalyzed 2 id exStrict 0 exUncAll (fromPymatgen exNum exParams exSelect 1 none (.one exTraj)) :=
  ⟨C79_ase exNum exParams exSelect ["Li"] rfl rfl exGrid (by decide +kernel) 3 (exFrame 0) [exFrame 1, exFrame 2, exFrame 3, exFrame 4]
      (by decide) exTraj_valid (by decide +kernel) id exStrict 0 exUncAll exUncAll_runs (by decide) (by decide +kernel),
    C79_pymatgen_partial exNum exParams exSelect ["Li"] rfl rfl exGrid (by decide +kernel) rfl 3 (exFrame 0)
      [exFrame 1, exFrame 2, exFrame 3, exFrame 4] (by decide) exTraj_valid (by decide +kernel) id exStrict 0 exUncAll exUncAll_runs (by decide)
      (by decide +kernel)⟩

/-- `C79_mda`, for the frames of `wrappedMda`. -/
example : AllAnalyzed 2 id exStrict 0 exUncAll (fromUniverse exNum exParams exSelect 1 1 none
    (.one (wrappedMda 5 ["Li", "O", "Li"] exBox 1000 exTrue exImages))) :=
  C79_mda exNum exParams exSelect ["Li"] rfl rfl exGrid (by decide +kernel) 3 ["Li", "O", "Li"] _ (by decide +kernel) rfl
    ⟨"Li", by simp, by simp⟩ (by
      intro f hf
      obtain ⟨j, -, rfl⟩ := List.mem_map.mp hf
      refine ⟨rfl, ?_⟩
      unfold NonSingular
      rw [← det3_eq_det]
      show det3 exBox ≠ 0
      decide +kernel) (by decide +kernel) id exStrict 0 exUncAll exUncAll_runs (by decide) (by decide +kernel)

end Kinisi
