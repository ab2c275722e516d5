import Verif.Props.CellChoice

/-!
# Only the rows of the analysed atoms and of the framework are read
-/

set_option linter.unusedSectionVars false
set_option linter.unusedVariables false

namespace Kinisi
open Spec
variable {K : Type} [Field K] [LinearOrder K] [IsStrictOrderedRing K] [FloorRing K] {G : Type}

/-- The two arrays have the same shape and the same rows for the atoms in `R`. -/
def RowsAgree (R : List ℕ) (a b : Arr3 K) : Prop := a.n0 = b.n0 ∧ a.n1 = b.n1 ∧ ∀ i ∈ R, ∀ k < a.n1, a.get i k = b.get i k

theorem rows_in {n : ℕ} {l : List ℤ} {rows R : List ℕ} (h : l.mapM (npIdx n) = .ok rows) (hR : ∀ d ∈ l, ∀ r, npIdx n d = .ok r → r ∈ R) :
    ∀ r ∈ rows, r ∈ R := by
  obtain ⟨hlen, hi⟩ := mapM_except_inv h
  intro r hr
  obtain ⟨i, hi', rfl⟩ := List.getElem_of_mem hr
  exact hR _ (List.getElem_mem _) _ (hi i (by omega) hi')

theorem correctDriftSeq_rows {s : PySeq} {R : List ℕ} {a b : Arr3 K} (h : RowsAgree R a b) (hR : ∀ d ∈ s.vals, ∀ r, npIdx a.n0 d = .ok r → r ∈ R) :
    (∃ e, correctDriftSeq s a = .error e ∧ correctDriftSeq s b = .error e) ∨
      ∃ a' b', correctDriftSeq s a = .ok a' ∧ correctDriftSeq s b = .ok b' ∧ a'.n0 = a.n0 ∧ RowsAgree R a' b' := by
  obtain ⟨h0, h1, hg⟩ := h
  unfold correctDriftSeq correctDrift
  split_ifs
  · exact .inl ⟨_, rfl, rfl⟩
  · rw [← h0]
    cases hr : s.vals.mapM (npIdx a.n0) with
    | error e => exact .inl ⟨e, rfl, rfl⟩
    | ok rows =>
    have hin := rows_in hr hR
    refine .inr ⟨_, _, rfl, rfl, rfl, rfl, h1, fun i hi k hk => ?_⟩
    funext l
    dsimp only
    rw [hg i hi k hk]
    congr 3
    apply List.map_congr_left
    intro r hr'
    rw [hg r (hin r hr') k hk]
  · exact .inr ⟨_, _, rfl, rfl, rfl, h0, h1, hg⟩

theorem singleOrigin_rows {a b : Arr3 K} {R : List ℕ} (h : RowsAgree R a b) {rows : List ℕ} (hr : ∀ r ∈ rows, r ∈ R) (i : ℕ) :
    clip (singleOrigin a rows i) = clip (singleOrigin b rows i) := by
  obtain ⟨h0, h1, hg⟩ := h
  unfold singleOrigin
  rw [clip_eq_iff]
  refine ⟨rfl, by simp only [h1], fun r hrr k hk => ?_⟩
  dsimp only at hrr hk ⊢
  apply hg
  · apply hr
    rw [List.getD_eq_getElem?_getD, List.getElem?_eq_getElem hrr]
    exact List.getElem_mem _
  · unfold sliceBound at hk
    split_ifs at hk <;> omega

theorem multiOrigin_rows {a b : Arr3 K} {R : List ℕ} (h : RowsAgree R a b) {rows : List ℕ} (hr : ∀ r ∈ rows, r ∈ R) (τ : ℤ) :
    (multiOrigin a rows τ).map clip = (multiOrigin b rows τ).map clip := by
  obtain ⟨h0, h1, hg⟩ := h
  unfold multiOrigin
  rw [← h1]
  cases hf : npIdx a.n1 (τ - 1) with
  | error e => rfl
  | ok first =>
  have hfl := npIdx_lt hf
  simp only [bind, Except.bind]
  split_ifs with hne
  · rfl
  · simp only [Except.map]
    congr 1
    rw [clip_eq_iff]
    refine ⟨rfl, rfl, fun r hrr k hk => ?_⟩
    dsimp only at hrr hk ⊢
    have hrow : rows.getD r 0 ∈ R := by
      apply hr
      rw [List.getD_eq_getElem?_getD, List.getElem?_eq_getElem hrr]
      exact List.getElem_mem _
    split_ifs with hk0
    · exact hg _ hrow _ hfl
    · rw [hg _ hrow _ (by omega), hg _ hrow _ (by omega)]

theorem oneInterval_rows (fl : K → K) (idx : List ℤ) (sampling : String) (last : ℤ) {R : List ℕ} {a b : Arr3 K} (h : RowsAgree R a b)
    (hR : ∀ d ∈ idx, ∀ r, npIdx a.n0 d = .ok r → r ∈ R) (p : ℤ × ℕ) :
    (oneInterval fl idx sampling last a p).map clipPair = (oneInterval fl idx sampling last b p).map clipPair := by
  have h0 := h.1
  unfold oneInterval
  rw [← h0]
  cases hr : idx.mapM (npIdx a.n0) with
  | error e => rfl
  | ok rows =>
  have hin := rows_in hr hR
  simp only [bind, Except.bind]
  have tail : ∀ d d' : Arr3 K, clip d = clip d' →
      (if p.1 = 0 then Except.error PyErr.valueError else if d.n0 * strideCount d.n1 p.1 ≤ 1 then Except.ok none
        else Except.ok (some (d, fl ((((d.n0 : ℤ) * last : ℤ) : K) / (p.1 : K)))) : PyM (Option (Arr3 K × K))).map clipPair =
      (if p.1 = 0 then Except.error PyErr.valueError else if d'.n0 * strideCount d'.n1 p.1 ≤ 1 then Except.ok none
        else Except.ok (some (d', fl ((((d'.n0 : ℤ) * last : ℤ) : K) / (p.1 : K)))) : PyM (Option (Arr3 K × K))).map clipPair := by
    intro d d' hd
    obtain ⟨d0, d1, -⟩ := clip_eq_iff.mp hd
    rw [d0, d1]
    split_ifs
    · rfl
    · rfl
    · simp only [Except.map, clipPair, Option.map, hd]
  by_cases hs : sampling = "single-origin"
  · simp only [if_pos hs]
    exact tail _ _ (singleOrigin_rows h hin _)
  simp only [if_neg hs]
  by_cases hm : sampling = "multi-origin"
  · simp only [if_pos hm]
    exact map_bind_eq (multiOrigin_rows h hin p.1) tail
  · simp only [if_neg hm]

theorem getDisps_rows (fl : K → K) (giga : K) (itemsize : ℕ) (ts ss : PyNum K) (idx : List ℤ) (sampling : String) (limit : K) (iv : List ℤ)
    {R : List ℕ} {a b : Arr3 K} (h : RowsAgree R a b) (hR : ∀ d ∈ idx, ∀ r, npIdx a.n0 d = .ok r → r ∈ R) :
    (getDisps fl giga itemsize ts ss idx sampling limit iv a).map clipOut = (getDisps fl giga itemsize ts ss idx sampling limit iv b).map clipOut := by
  obtain ⟨h0, h1, -⟩ := id h
  unfold getDisps
  rw [← h0, ← h1]
  cases checkRows iv idx a.n0 with
  | error e => rfl
  | ok rows =>
  simp only [bind, Except.bind]
  split_ifs
  · rfl
  · refine map_bind_eq (h := List.map clipPair) (mapM_map_eq fun p _ => oneInterval_rows _ _ _ _ h hR _) fun r r' hr => ?_
    have := congrArg (List.filterMap id) hr
    rw [filterMap_clipPair, filterMap_clipPair] at this
    have e1 := congrArg (List.map Prod.fst) this
    have e2 := congrArg (List.map Prod.snd) this
    simp only [List.map_map, Function.comp_def] at e1 e2
    simp only [Except.map, clipOut, List.map_map, Function.comp_def, e1, e2]

theorem parserInit_rows (E : Num K) (P : Params K) (w w' : Bool) {R : List ℕ} {a b : Arr3 K} (h : RowsAgree R a b) (sel : Selection)
    (hi : ∀ d ∈ sel.indices, ∀ r, npIdx a.n0 d = .ok r → r ∈ R) (hd : ∀ d ∈ sel.drift.vals, ∀ r, npIdx a.n0 d = .ok r → r ∈ R) :
    (parserInit E P w a sel).map shownBase = (parserInit E P w' b sel).map shownBase := by
  unfold parserInit
  rcases correctDriftSeq_rows h hd with ⟨e, e1, e2⟩ | ⟨dc, dc', e1, e2, hn, hdc⟩
  · rw [e1, e2]; rfl
  · rw [e1, e2]
    simp only [bind, Except.bind]
    rw [← hdc.2.1]
    cases initTimeIntervals E.fl E.geo dc.n1 P.timeStep P.stepSkip P.minDt P.maxDt P.nSteps P.spacing with
    | error e => rfl
    | ok ti =>
    simp only
    refine map_bind_eq (getDisps_rows _ _ _ _ _ _ _ _ _ hdc (by rw [hn]; exact hi)) fun o o' ho => ?_
    have e1 : (clipOut o).deltaT = (clipOut o').deltaT := congrArg DispsOut.deltaT ho
    have e2 : o.disp3d.map clip = o'.disp3d.map clip := congrArg DispsOut.disp3d ho
    have e3 : (clipOut o).nO = (clipOut o').nO := congrArg DispsOut.nO ho
    change o.deltaT = o'.deltaT at e1
    change o.nO = o'.nO at e3
    simp only [Except.map, shownBase, clipBase, baseOf, e1, e2, e3]

theorem getDisp_rows {F n : ℕ} (hF : 0 < F) {f f' : ℕ → ℕ → V3 K} {L : ℕ → M3 K} {R : List ℕ} (hR : ∀ i ∈ R, i < n) (hf : ∀ i ∈ R, ∀ j < F, f j i = f' j i) :
    (∃ e, getDisp (frames F n f) (cells F L) = .error e ∧ getDisp (frames F n f') (cells F L) = .error e) ∨
      ∃ w a b, getDisp (frames F n f) (cells F L) = .ok (w, a) ∧ getDisp (frames F n f') (cells F L) = .ok (w, b) ∧ a.n0 = n ∧ RowsAgree R a b := by
  by_cases hL : ∀ j < F, NonSingular (L j)
  · have hdet : ∀ j < F, det3 (L j) ≠ 0 := fun j hj => by rw [det3_eq_det]; exact hL j hj
    obtain ⟨a, ha, a0, a1, ag⟩ := getDisp_frames F n hF f L hdet
    obtain ⟨b, hb, b0, b1, bg⟩ := getDisp_frames F n hF f' L hdet
    refine .inr ⟨_, a, b, ha, hb, a0, a0.trans b0.symm, a1.trans b1.symm, fun i hi k hk => ?_⟩
    funext l
    rw [a1] at hk
    rw [ag i (hR i hi) k hk, bg i (hR i hi) k hk]
    apply Finset.sum_congr rfl
    intro t ht
    have := Finset.mem_range.mp ht
    rw [hf i hi t (by omega), hf i hi (t + 1) (by omega)]
  · push Not at hL
    obtain ⟨j, hj, hs⟩ := hL
    have hmem : L j ∈ cells F L := List.mem_map.mpr ⟨j, by simpa using hj, rfl⟩
    have err : ∀ f : ℕ → ℕ → V3 K, getDisp (frames F n f) (cells F L) = .error .linAlgError := by
      intro f
      refine (((C05_outcomes (frames F n f) (cells F L)).2.2 n ?_ ?_).1 ⟨_, hmem, hs⟩)
      · intro h
        have := congrArg List.length h
        simp [frames] at this
        omega
      · intro c hc
        obtain ⟨j, -, rfl⟩ := List.mem_map.mp hc
        simp
    exact .inl ⟨_, err f, err f'⟩

theorem structure_cells {F : ℕ} (hF : 0 < F) (sy : List String) (C : ℕ → M3 K) (V : ℕ → K) (s : ℕ → ℕ → V3 K) : structureCoordsLatt (cellFrames F sy C V s) =
    .ok (⟨sy, (List.range sy.length).map fun i => s i 0, C 0, V 0⟩, frames (F + 1) sy.length fun j i => s i (j - 1), cells (F + 1) fun j => C (j - 1)) := by
  obtain ⟨m, rfl⟩ : ∃ m, F = m + 1 := ⟨F - 1, by omega⟩
  unfold structureCoordsLatt cellFrames frames cells
  rw [List.range_succ_eq_map (n := m + 1), List.range_succ_eq_map (n := m)]
  simp [Function.comp_def]

/-- The particles in the list `R` are at the same places in both trajectories. -/
def SameFor (R : List ℕ) (s s' : ℕ → ℕ → V3 K) : Prop := ∀ i ∈ R, ∀ j, s i j = s' i j

/-- What buildParser makes of two trajectories is the same as far as the analyzers are concerned. -/
def BuildSame (E : Num K) (S : Select K) (sy : List String) (s s' : ℕ → ℕ → V3 K) : Prop :=
  ∀ (P : Params K) (F : ℕ) (C : ℕ → M3 K) (V : ℕ → K) (r : ℕ → ℕ),
    (structureCoordsLatt (cellFrames F sy C V fun i j => s i (r j)) >>= fun p => buildParser E P S p.1 p.2.1 p.2.2).map shownBase =
      (structureCoordsLatt (cellFrames F sy C V fun i j => s' i (r j)) >>= fun p => buildParser E P S p.1 p.2.1 p.2.2).map shownBase

theorem noMolecules_of_picks {S : Select K} {sy : List String} {atoms fw : List ℕ} (hS : Picks S sy atoms fw) : NoMolecules S := by
  cases hS with
  | species sp hs hf => exact .inl (by simp [hs])
  | framework sp _ t hs hf hm => exact .inl (by simp [hs])
  | numbers _ t hs hi hf hm => exact .inr fun ms => by simp [hi]

theorem build_picks {E : Num K} {S : Select K} {sy : List String} {atoms fw : List ℕ} (hS : Picks S sy atoms fw) {s s' : ℕ → ℕ → V3 K}
    (hs : SameFor (atoms ++ fw) s s') : BuildSame E S sy s s' := by
  intro P F C V r
  by_cases hF : F = 0
  · subst hF; rfl
  have hF : 0 < F := by omega
  have hmem := picks_mem hS
  have hR : ∀ i ∈ atoms ++ fw, i < sy.length := by
    intro i hi
    rcases List.mem_append.mp hi with h | h
    · exact hmem.1 i h
    · exact hmem.2 i h
  obtain ⟨x, hx⟩ := select_free (noMolecules_of_picks hS) sy
  rw [structure_cells hF, structure_cells hF]
  simp only [bind, Except.bind, buildParser, hx]
  cases x with
  | error e => rfl
  | ok sel =>
  obtain ⟨-, hi, hd⟩ := picks_select (tr := E.trig) hS (hx E.trig [])
  simp only [Except.map]
  rcases getDisp_rows (F := F + 1) (n := sy.length) (by omega) (f := fun j i => s i (r (j - 1))) (f' := fun j i => s' i (r (j - 1))) (L := fun j => C (j - 1)) hR
    (fun i hi j _ => hs i hi _) with ⟨e, e1, e2⟩ | ⟨w, a, b, e1, e2, e3, hab⟩
  · rw [e1, e2]
  · rw [e1, e2]
    have nat : ∀ (l : List ℕ), (∀ k ∈ l, k ∈ atoms ++ fw) → ∀ d ∈ l.map (fun k : ℕ => (k : ℤ)), ∀ q, npIdx a.n0 d = .ok q → q ∈ atoms ++ fw := by
      intro l hl d hd q hq
      obtain ⟨k, hk, rfl⟩ := List.mem_map.mp hd
      unfold npIdx at hq
      split_ifs at hq
      · have := Except.ok.inj hq
        simp only [Int.toNat_natCast] at this
        exact this ▸ hl k hk
      · omega
    have hp := parserInit_rows E P w w hab sel (by rw [hi]; exact nat _ fun k hk => by simp [hk]) (by rw [hd]; exact nat _ fun k hk => by simp [hk])
    rcases map_eq_cases hp with ⟨e, e1, e2⟩ | ⟨q, q', e1, e2, hr⟩
    · simp only [e1, e2]
    · simp only [e1, e2]
      simp only [shownBase, clipBase, baseOf, Prod.mk.injEq, Base.mk.injEq] at hr ⊢
      obtain ⟨⟨r1, r2, r3, -⟩, r5⟩ := hr
      simp only [r1, r2, r3, r5]

theorem centre_same {tr : Trig K} {masses : Option (List K)} {n : ℕ} {f f' : ℕ → V3 K} {atoms : List ℕ} (h : ∀ a ∈ atoms, a < n ∧ f a = f' a) :
    moleculeCentre3 tr masses ((List.range n).map f) atoms = moleculeCentre3 tr masses ((List.range n).map f') atoms := by
  have key : ∀ x : Fin 3, (atoms.map fun a => ((List.range n).map f).getD a 0 x) = atoms.map fun a => ((List.range n).map f').getD a 0 x := by
    intro x
    apply List.map_congr_left
    intro a ha
    obtain ⟨h1, h2⟩ := h a ha
    simp [List.getD_eq_getElem?_getD, h1, h2]
  unfold moleculeCentre3
  rw [key, key, key]

theorem mapM_congr_on {α β : Type} {p q : α → PyM β} {l : List α} (h : ∀ x ∈ l, p x = q x) : l.mapM p = l.mapM q := by
  induction l with
  | nil => rfl
  | cons x l ih => rw [List.mapM_cons, List.mapM_cons, h x (by simp), ih fun y hy => h y (by simp [hy])]

theorem mapM_of_map {α β γ : Type} (f : γ → α) (p : α → PyM β) (l : List γ) : (l.map f).mapM p = l.mapM fun x => p (f x) := by
  induction l with
  | nil => rfl
  | cons x l ih => rw [List.map_cons, List.mapM_cons, List.mapM_cons, ih]

/-- The selection of molecules does not look at other atoms. -/
theorem molecules_same {tr : Trig K} {n F : ℕ} {f f' : ℕ → ℕ → V3 K} {mols : List (List ℤ)} {masses : Option (List K)} {fw : PySeq} {R : List ℕ}
    (hm : ∀ m ∈ mols, ∀ z ∈ m, ∀ r, npIdx n (z - 1) = .ok r → r ∈ R) (hw : ∀ z ∈ fw.vals, ∀ r, npIdx n (z - 1) = .ok r → r ∈ R)
    (hf : ∀ i ∈ R, ∀ j, f j i = f' j i) :
    getMolecules tr n (frames (F + 1) n f) mols masses (some fw) = getMolecules tr n (frames (F + 1) n f') mols masses (some fw) := by
  have hhead : ∀ f : ℕ → ℕ → V3 K, ((frames (F + 1) n f).headD []).length = n := by
    intro f
    simp [frames, List.range_succ_eq_map]
  have hall : ∀ f : ℕ → ℕ → V3 K, (frames (F + 1) n f).all (fun c => decide (c.length = n)) = true := by
    intro f
    simp [frames]
  unfold getMolecules
  simp only [hhead, hall]
  refine if_congr Iff.rfl rfl (if_congr Iff.rfl rfl (if_congr Iff.rfl rfl (if_congr Iff.rfl rfl ?_)))
  cases ha : (mols.map fun m => m.map (· - 1)).mapM (fun m => m.mapM (npIdx n)) with
  | error e => rfl
  | ok atoms =>
  simp only [bind, Except.bind]
  have hatoms : ∀ m ∈ atoms, ∀ a ∈ m, a < n ∧ a ∈ R := by
    obtain ⟨hlen, hi⟩ := mapM_except_inv ha
    intro m hmm a haa
    obtain ⟨i, hi', rfl⟩ := List.getElem_of_mem hmm
    have hrow := hi i (by omega) hi'
    refine ⟨rows_lt hrow a haa, rows_in hrow ?_ a haa⟩
    intro d hd r hr
    simp only [List.getElem_map, List.mem_map] at hd
    obtain ⟨z, hz, rfl⟩ := hd
    exact hm _ (List.getElem_mem _) z hz r hr
  have hcom : ((frames (F + 1) n f).mapM fun c => atoms.mapM fun m => moleculeCentre3 tr masses c m) =
      (frames (F + 1) n f').mapM fun c => atoms.mapM fun m => moleculeCentre3 tr masses c m := by
    unfold frames
    rw [mapM_of_map, mapM_of_map]
    apply mapM_congr_on
    intro j _
    apply mapM_congr_on
    intro m hmm
    exact centre_same fun a haa => ⟨(hatoms m hmm a haa).1, hf a (hatoms m hmm a haa).2 j⟩
  rw [hcom]
  cases (frames (F + 1) n f').mapM fun c => atoms.mapM fun m => moleculeCentre3 tr masses c m with
  | error e => rfl
  | ok com =>
  simp only [moleculeDrift]
  refine if_congr Iff.rfl rfl ?_
  cases hd : (fw.vals.map (· - 1)).mapM (npIdx n) with
  | error e => rfl
  | ok dr =>
  simp only
  have hdr : ∀ a ∈ dr, a < n ∧ a ∈ R := by
    intro a haa
    refine ⟨rows_lt hd a haa, rows_in hd ?_ a haa⟩
    intro d hdd r hr
    obtain ⟨z, hz, rfl⟩ := List.mem_map.mp hdd
    exact hw z hz r hr
  have hz : List.zipWith (fun c cs => cs ++ dr.map fun a => c.getD a 0) (frames (F + 1) n f) com =
      List.zipWith (fun c cs => cs ++ dr.map fun a => c.getD a 0) (frames (F + 1) n f') com := by
    unfold frames
    rw [List.zipWith_map_left, List.zipWith_map_left]
    congr 1
    funext j cs
    congr 1
    apply List.map_congr_left
    intro a haa
    obtain ⟨h1, h2⟩ := hdr a haa
    simp [List.getD_eq_getElem?_getD, h1, hf a h2 j]
  rw [hz]

theorem build_molecules {E : Num K} {S : Select K} {sy : List String} {mols : List (List ℕ)} {fw : List ℕ} {isTuple : Bool} (hn : S.specie = none)
    (hm : S.specieIdx = .mols (mols.map fun m => m.map fun a : ℕ => ((a : ℤ) + 1)))
    (hf : S.framework = some ⟨isTuple, fw.map fun a : ℕ => ((a : ℤ) + 1)⟩) {s s' : ℕ → ℕ → V3 K} (hs : SameFor (mols.flatten ++ fw) s s') :
    BuildSame E S sy s s' := by
  intro P F C V r
  by_cases hF : F = 0
  · subst hF; rfl
  have hF : 0 < F := by omega
  rw [structure_cells hF, structure_cells hF]
  simp only [bind, Except.bind, buildParser]
  have hsel : selectAtoms E.trig sy (frames (F + 1) sy.length fun j i => s i (r (j - 1))) S =
      selectAtoms E.trig sy (frames (F + 1) sy.length fun j i => s' i (r (j - 1))) S := by
    unfold selectAtoms
    rw [hn, hm, hf]
    dsimp only
    split_ifs
    · rfl
    have nat : ∀ (a q : ℕ), npIdx sy.length ((a : ℤ) + 1 - 1) = .ok q → q = a := by
      intro a q hq
      rw [add_sub_cancel_right] at hq
      unfold npIdx at hq
      split_ifs at hq
      · have := Except.ok.inj hq
        simpa using this.symm
      · omega
    refine molecules_same (R := mols.flatten ++ fw) ?_ ?_ (fun i hi j => hs i hi _)
    · intro m hmm z hz q hq
      obtain ⟨m', hm', rfl⟩ := List.mem_map.mp hmm
      obtain ⟨a, ha, rfl⟩ := List.mem_map.mp hz
      rw [nat a q hq]
      exact List.mem_append_left _ (List.mem_flatten.mpr ⟨m', hm', ha⟩)
    · intro z hz q hq
      obtain ⟨a, ha, rfl⟩ := List.mem_map.mp hz
      rw [nat a q hq]
      exact List.mem_append_right _ ha
  rw [hsel]

theorem universe_singular {F : ℕ} {sy : List String} {C : ℕ → M3 K} {j : ℕ} (hj : j < F) (hC : ¬ NonSingular (C j)) {V : ℕ → K} {s : ℕ → ℕ → V3 K} :
    (cellUniverse F sy C V s).2.mapM (mdaFrame sy 1) = .error .linAlgError := by
  have hz : det3 (C j) = 0 := by
    by_contra h
    exact hC (by rw [nonSingular_iff]; exact h)
  refine mapM_except_err (mdaFrame sy 1) _ _ _ (List.mem_map.mpr ⟨j, by simpa using hj, rfl⟩) ?_ fun b hb => ?_
  · unfold mdaFrame
    simp only [pyStride_one, bind, Except.bind, inv3_err hz]
  · unfold mdaFrame
    simp only [pyStride_one, bind, Except.bind]
    by_cases hb' : det3 b.latt = 0
    · left; rw [inv3_err hb']
    · right; rw [inv3_ok hb']; exact ⟨_, rfl⟩

theorem base_same {E : Num K} {P : Params K} {S : Select K} {sy : List String} {k F : ℕ} (hk : 0 < k) {C : ℕ → M3 K} {V : ℕ → K} {s s' : ℕ → ℕ → V3 K}
    (hs : BuildSame E S sy s s') {base base' : PyM (Base K)} (hb : ReadBoth E P S k F sy C C V V s s' base base') :
    base.map clipBase = base'.map clipBase := by
  have main := fun P => hs P ((F + k - 1) / k) (fun j => C (k * j)) (fun j => V (k * j)) (fun j => k * j)
  rcases hb with ⟨rfl, rfl⟩ | ⟨rfl, rfl⟩ | ⟨rfl, rfl⟩
  · simp only [fromAse, analyzerFrom, Traj.asOne, aseParser, thin_frames hk, bind, Except.bind]
    rcases map_eq_cases (main P) with ⟨e, e1, e2⟩ | ⟨r, r', e1, e2, hr⟩ <;> simp only [bind, Except.bind] at e1 e2 <;> rw [e1, e2]
    exact congrArg Except.ok (Prod.mk.inj hr).1
  · simp only [fromPymatgen, analyzerFrom, Traj.asOne, pymatgenParser, thin_frames hk, bind, Except.bind]
    generalize P.stepSkip.mul E.fl (.int (k : ℤ)) = ss
    rcases map_eq_cases (main { P with stepSkip := ss }) with ⟨e, e1, e2⟩ | ⟨r, r', e1, e2, hr⟩
    · cases hx : structureCoordsLatt (cellFrames ((F + k - 1) / k) sy (fun j => C (k * j)) (fun j => V (k * j)) fun i j => s i (k * j)) <;>
        cases hy : structureCoordsLatt (cellFrames ((F + k - 1) / k) sy (fun j => C (k * j)) (fun j => V (k * j)) fun i j => s' i (k * j)) <;>
        rw [hx] at e1 <;> rw [hy] at e2 <;> simp only [bind, Except.bind] at e1 e2 ⊢
      · rw [Except.error.inj e1, Except.error.inj e2]
      · rw [Except.error.inj e1, e2]
      · rw [e1, Except.error.inj e2]
      · rw [e1, e2]
    · cases hx : structureCoordsLatt (cellFrames ((F + k - 1) / k) sy (fun j => C (k * j)) (fun j => V (k * j)) fun i j => s i (k * j)) <;>
        cases hy : structureCoordsLatt (cellFrames ((F + k - 1) / k) sy (fun j => C (k * j)) (fun j => V (k * j)) fun i j => s' i (k * j)) <;>
        rw [hx] at e1 <;> rw [hy] at e2 <;> simp only [bind, Except.bind] at e1 e2 ⊢
      · cases e1
      · cases e1
      · cases e2
      · rw [e1, e2]
        obtain ⟨hr1, hr2⟩ := Prod.mk.inj hr
        dsimp only
        rw [hr2]
        split_ifs
        · rfl
        · simp only [clipBase, baseOf, Base.mk.injEq] at hr1
          obtain ⟨r1, r2, r3, r4⟩ := hr1
          simp only [Except.map, clipBase, baseOf, r1, r2, r3, r4]
  · simp only [fromUniverse, analyzerFrom, Traj.asOne, mdaParser, thin_universe hk, bind, Except.bind, ne_eq, not_true_eq_false, decide_false, Bool.false_and,
      Bool.false_eq_true, if_false]
    rw [show (cellUniverse F sy C V s).1 = sy from rfl, show (cellUniverse F sy C V s').1 = sy from rfl]
    by_cases hC : ∀ j < (F + k - 1) / k, NonSingular (C (k * j))
    · have u1 := universe_reads (F := (F + k - 1) / k) (sy := sy) (C := fun j => C (k * j)) hC (V := fun j => V (k * j)) (s := fun i j => s i (k * j))
      have u2 := universe_reads (F := (F + k - 1) / k) (sy := sy) (C := fun j => C (k * j)) hC (V := fun j => V (k * j)) (s := fun i j => s' i (k * j))
      rw [u1, u2]
      dsimp only
      generalize P.stepSkip.mul E.fl (.int (k : ℤ)) = ss
      rcases map_eq_cases (main { P with stepSkip := ss }) with ⟨e, e1, e2⟩ | ⟨r, r', e1, e2, hr⟩ <;> simp only [bind, Except.bind] at e1 e2 <;> rw [e1, e2]
      exact congrArg Except.ok (Prod.mk.inj hr).1
    · push Not at hC
      obtain ⟨j, hj, hn⟩ := hC
      rw [universe_singular (C := fun j => C (k * j)) hj hn, universe_singular (C := fun j => C (k * j)) hj hn]

end Kinisi
