import Verif.Spec.Agree
import Verif.Model.Analyzer
import Verif.Lemmas.Observables
import Verif.Lemmas.GetDisps

/-!
# The model never looks outside of the shape of an array
-/

set_option linter.unusedSectionVars false
set_option linter.unusedVariables false

namespace Kinisi
open Spec
variable {K : Type} [Field K] [LinearOrder K] [IsStrictOrderedRing K] [FloorRing K] {G : Type}

theorem clip_eq_iff {a b : Arr3 K} : clip a = clip b ↔ a.n0 = b.n0 ∧ a.n1 = b.n1 ∧ ∀ i < a.n0, ∀ k < a.n1, a.get i k = b.get i k := by
  constructor
  · intro h
    have h0 : (clip a).n0 = (clip b).n0 := congrArg Arr3.n0 h
    have h1 : (clip a).n1 = (clip b).n1 := congrArg Arr3.n1 h
    change a.n0 = b.n0 at h0
    change a.n1 = b.n1 at h1
    refine ⟨h0, h1, fun i hi k hk => ?_⟩
    have := congrFun (congrFun (congrArg Arr3.get h) i) k
    simpa [clip, hi, hk, ← h0, ← h1] using this
  · rintro ⟨h0, h1, hg⟩
    unfold clip
    rw [← h0, ← h1]
    congr 1
    funext i k
    split_ifs with h
    · exact hg i h.1 k h.2
    · rfl

theorem map_eq_cases {α β : Type} {f : α → β} {x y : PyM α} (h : x.map f = y.map f) :
    (∃ e, x = .error e ∧ y = .error e) ∨ ∃ a b, x = .ok a ∧ y = .ok b ∧ f a = f b := by
  cases x with
  | error e =>
    cases y with
    | error e' => left; exact ⟨e, rfl, by cases h; rfl⟩
    | ok b => cases h
  | ok a =>
    cases y with
    | error e' => cases h
    | ok b => right; exact ⟨a, b, rfl, rfl, Except.ok.inj h⟩

theorem map_bind_eq {α β γ δ : Type} {f : α → β} {h : γ → δ} {x y : PyM γ} {p q : γ → PyM α} (hx : x.map h = y.map h)
    (hpq : ∀ a b, h a = h b → (p a).map f = (q b).map f) : (x >>= p).map f = (y >>= q).map f := by
  rcases map_eq_cases hx with ⟨e, rfl, rfl⟩ | ⟨a, b, rfl, rfl, hab⟩
  · rfl
  · exact hpq a b hab

theorem mapM_map_eq {α β γ : Type} {p q : α → PyM β} {h : β → γ} {l : List α} (hl : ∀ x ∈ l, (p x).map h = (q x).map h) :
    (l.mapM p).map (List.map h) = (l.mapM q).map (List.map h) := by
  induction l with
  | nil => rfl
  | cons x l ih =>
    rw [List.mapM_cons, List.mapM_cons]
    refine map_bind_eq (hl x (by simp)) fun a b hab => ?_
    refine map_bind_eq (h := List.map h) (ih fun y hy => hl y (by simp [hy])) fun as bs has => ?_
    simp only [pure, Except.pure, Except.map, List.map_cons, hab, has]

theorem npIdx_lt {n : ℕ} {d : ℤ} {r : ℕ} (h : npIdx n d = .ok r) : r < n := by
  unfold npIdx at h
  split_ifs at h with h1 h2
  · obtain rfl := Except.ok.inj h; omega
  · obtain rfl := Except.ok.inj h; omega

theorem rows_lt {n : ℕ} {l : List ℤ} {rows : List ℕ} (h : l.mapM (npIdx n) = .ok rows) : ∀ r ∈ rows, r < n := by
  obtain ⟨hlen, hi⟩ := mapM_except_inv h
  intro r hr
  obtain ⟨i, hi', rfl⟩ := List.getElem_of_mem hr
  exact npIdx_lt (hi i (by omega) hi')

theorem correctDriftSeq_clip {s : PySeq} {a b : Arr3 K} (h : clip a = clip b) : (correctDriftSeq s a).map clip = (correctDriftSeq s b).map clip := by
  obtain ⟨h0, h1, hg⟩ := clip_eq_iff.mp h
  unfold correctDriftSeq correctDrift
  split_ifs
  · rfl
  · rw [← h0]
    cases hr : s.vals.mapM (npIdx a.n0) with
    | error e => rfl
    | ok rows =>
    have hlt := rows_lt hr
    simp only [bind, Except.bind, Except.map]
    congr 1
    rw [clip_eq_iff]
    refine ⟨rfl, h1, fun i hi k hk => ?_⟩
    funext l
    dsimp only
    rw [hg i hi k hk]
    congr 3
    apply List.map_congr_left
    intro r hr'
    rw [hg r (hlt r hr') k hk]
  · simp only [Except.map, h]

theorem singleOrigin_clip {a b : Arr3 K} (h : clip a = clip b) {rows : List ℕ} (hr : ∀ r ∈ rows, r < a.n0) (i : ℕ) :
    clip (singleOrigin a rows i) = clip (singleOrigin b rows i) := by
  obtain ⟨h0, h1, hg⟩ := clip_eq_iff.mp h
  unfold singleOrigin
  rw [clip_eq_iff]
  refine ⟨rfl, by simp only [h1], fun r hrr k hk => ?_⟩
  dsimp only at hrr hk ⊢
  apply hg
  · apply hr
    rw [List.getD_eq_getElem?_getD, List.getElem?_eq_getElem hrr]
    exact List.getElem_mem _
  · unfold sliceBound at hk
    split_ifs at hk <;> omega

theorem multiOrigin_clip {a b : Arr3 K} (h : clip a = clip b) {rows : List ℕ} (hr : ∀ r ∈ rows, r < a.n0) (τ : ℤ) :
    (multiOrigin a rows τ).map clip = (multiOrigin b rows τ).map clip := by
  obtain ⟨h0, h1, hg⟩ := clip_eq_iff.mp h
  unfold multiOrigin
  rw [← h1]
  cases hf : npIdx a.n1 (τ - 1) with
  | error e => rfl
  | ok first =>
  have hfl := npIdx_lt hf
  simp only [bind, Except.bind]
  split_ifs with hne
  · rfl
  · simp only [Except.map]
    congr 1
    rw [clip_eq_iff]
    refine ⟨rfl, rfl, fun r hrr k hk => ?_⟩
    dsimp only at hrr hk ⊢
    have hrow : rows.getD r 0 < a.n0 := by
      apply hr
      rw [List.getD_eq_getElem?_getD, List.getElem?_eq_getElem hrr]
      exact List.getElem_mem _
    split_ifs with hk0
    · exact hg _ hrow _ hfl
    · have hle : sliceBound a.n1 τ ≤ a.n1 ∨ a.n1 < sliceBound a.n1 τ := by omega
      rw [hg _ hrow _ (by omega), hg _ hrow _ (by omega)]

/-- What one turn of the sampling loop yields, clipped. -/
def clipPair (p : Option (Arr3 K × K)) : Option (Arr3 K × K) := p.map fun q => (clip q.1, q.2)

theorem oneInterval_clip (fl : K → K) (idx : List ℤ) (sampling : String) (last : ℤ) {a b : Arr3 K} (h : clip a = clip b) (p : ℤ × ℕ) :
    (oneInterval fl idx sampling last a p).map clipPair = (oneInterval fl idx sampling last b p).map clipPair := by
  obtain ⟨h0, h1, hg⟩ := clip_eq_iff.mp h
  unfold oneInterval
  rw [← h0]
  cases hr : idx.mapM (npIdx a.n0) with
  | error e => rfl
  | ok rows =>
  have hlt := rows_lt hr
  simp only [bind, Except.bind]
  have tail : ∀ d d' : Arr3 K, clip d = clip d' →
      (if p.1 = 0 then Except.error PyErr.valueError else if d.n0 * strideCount d.n1 p.1 ≤ 1 then Except.ok none
        else Except.ok (some (d, fl ((((d.n0 : ℤ) * last : ℤ) : K) / (p.1 : K)))) : PyM (Option (Arr3 K × K))).map clipPair =
      (if p.1 = 0 then Except.error PyErr.valueError else if d'.n0 * strideCount d'.n1 p.1 ≤ 1 then Except.ok none
        else Except.ok (some (d', fl ((((d'.n0 : ℤ) * last : ℤ) : K) / (p.1 : K)))) : PyM (Option (Arr3 K × K))).map clipPair := by
    intro d d' hd
    obtain ⟨d0, d1, -⟩ := clip_eq_iff.mp hd
    rw [d0, d1]
    split_ifs
    · rfl
    · rfl
    · simp only [Except.map, clipPair, Option.map, hd]
  by_cases hs : sampling = "single-origin"
  · simp only [if_pos hs]
    exact tail _ _ (singleOrigin_clip h hlt _)
  simp only [if_neg hs]
  by_cases hm : sampling = "multi-origin"
  · simp only [if_pos hm]
    exact map_bind_eq (multiOrigin_clip h hlt p.1) tail
  · simp only [if_neg hm]

/-- The output of `get_disps`, clipped. -/
def clipOut (o : DispsOut K) : DispsOut K := { o with disp3d := o.disp3d.map clip }

theorem filterMap_clipPair (l : List (Option (Arr3 K × K))) :
    (l.map clipPair).filterMap id = (l.filterMap id).map fun q => (clip q.1, q.2) := by
  induction l with
  | nil => rfl
  | cons x l ih =>
    cases x with
    | none => simpa only [List.map_cons, clipPair, Option.map_none, List.filterMap_cons, id] using ih
    | some q => simpa only [List.map_cons, clipPair, Option.map_some, List.filterMap_cons, id, List.cons.injEq, true_and] using ih

theorem getDisps_clip (fl : K → K) (giga : K) (itemsize : ℕ) (ts ss : PyNum K) (idx : List ℤ) (sampling : String) (limit : K) (iv : List ℤ)
    {a b : Arr3 K} (h : clip a = clip b) :
    (getDisps fl giga itemsize ts ss idx sampling limit iv a).map clipOut = (getDisps fl giga itemsize ts ss idx sampling limit iv b).map clipOut := by
  obtain ⟨h0, h1, hg⟩ := clip_eq_iff.mp h
  unfold getDisps
  rw [← h0, ← h1]
  cases checkRows iv idx a.n0 with
  | error e => rfl
  | ok rows =>
  simp only [bind, Except.bind]
  split_ifs
  · rfl
  · refine map_bind_eq (h := List.map clipPair) (mapM_map_eq fun p _ => oneInterval_clip _ _ _ _ h _) fun r r' hr => ?_
    have := congrArg (List.filterMap id) hr
    rw [filterMap_clipPair, filterMap_clipPair] at this
    have e1 := congrArg (List.map Prod.fst) this
    have e2 := congrArg (List.map Prod.snd) this
    simp only [List.map_map, Function.comp_def] at e1 e2
    simp only [Except.map, clipOut, List.map_map, Function.comp_def, e1, e2]

/-- What the analyzers get from a parser, clipped. -/
def clipBase (B : Base K) : Base K := { B with disp3d := B.disp3d.map clip }

/-- The same together with the type of `delta_t`. -/
def shownBase (r : Parsed K) : Base K × Bool := (clipBase (baseOf r), r.deltaInt)

theorem parserInit_clip (E : Num K) (P : Params K) (w w' : Bool) {a b : Arr3 K} (h : clip a = clip b) (sel : Selection) :
    (parserInit E P w a sel).map shownBase = (parserInit E P w' b sel).map shownBase := by
  unfold parserInit
  refine map_bind_eq (correctDriftSeq_clip h) fun dc dc' hd => ?_
  obtain ⟨d0, d1, -⟩ := clip_eq_iff.mp hd
  rw [← d1]
  cases initTimeIntervals E.fl E.geo dc.n1 P.timeStep P.stepSkip P.minDt P.maxDt P.nSteps P.spacing with
  | error e => rfl
  | ok ti =>
  simp only [bind, Except.bind]
  refine map_bind_eq (getDisps_clip _ _ _ _ _ _ _ _ _ hd) fun o o' ho => ?_
  have e1 : (clipOut o).deltaT = (clipOut o').deltaT := congrArg DispsOut.deltaT ho
  have e2 : o.disp3d.map clip = o'.disp3d.map clip := congrArg DispsOut.disp3d ho
  have e3 : (clipOut o).nO = (clipOut o').nO := congrArg DispsOut.nO ho
  change o.deltaT = o'.deltaT at e1
  change o.nO = o'.nO at e3
  simp only [Except.map, shownBase, clipBase, baseOf, e1, e2, e3]

/-! ## Observables -/

theorem dSquared_clip (axes : List (Fin 3)) (a : Arr3 K) : dSquared axes (clip a) = dSquared axes a := by
  unfold dSquared
  apply List.flatMap_congr
  intro i hi
  apply List.map_congr_left
  intro k hk
  rw [List.mem_range] at hi hk
  simp only [clip] at hi hk
  simp [clip, hi, hk]

theorem collMotion_clip (axes : List (Fin 3)) (a : Arr3 K) : collMotion axes (clip a) = collMotion axes a := by
  unfold collMotion
  apply List.map_congr_left
  intro k hk
  rw [List.mem_range] at hk
  simp only [clip] at hk
  congr 1
  apply List.map_congr_left
  intro x _
  congr 2
  apply List.map_congr_left
  intro i hi
  simp only [clip, List.mem_range] at hi
  simp [clip, hi, hk]

theorem chargeSum_clip (q : List K) (a : Arr3 K) {k : ℕ} (hk : k < a.n1) (x : Fin 3) : chargeSum q (clip a) k x = chargeSum q a k x := by
  have key : ∀ f : ℕ → K, ((List.range a.n0).map fun i => f i * (clip a).get i k x) = (List.range a.n0).map fun i => f i * a.get i k x := by
    intro f
    apply List.map_congr_left
    intro i hi
    rw [List.mem_range] at hi
    simp [clip, hi, hk]
  unfold chargeSum
  have e0 : (clip a).n0 = a.n0 := rfl
  rw [e0, key (fun i => q.getD i 0), key (fun _ => q.getD 0 0)]
  split_ifs with h1 h2 h3
  · rfl
  · rfl
  · simp [clip, h3, hk]
  · rfl

theorem chgMotion_clip (q : List K) (a : Arr3 K) : chgMotion q (clip a) = chgMotion q a := by
  unfold chgMotion
  have e0 : (clip a).n0 = a.n0 := rfl
  have e1 : (clip a).n1 = a.n1 := rfl
  rw [e0, e1]
  split_ifs
  · have : ∀ l : List ℕ, (∀ k ∈ l, k < a.n1) →
        (l.mapM fun k => do let v ← (List.finRange 3).mapM fun x => chargeSum q (clip a) k x; pure (v.map fun y => y ^ 2).sum) =
        (l.mapM fun k => do let v ← (List.finRange 3).mapM fun x => chargeSum q a k x; pure (v.map fun y => y ^ 2).sum) := by
      intro l hl
      induction l with
      | nil => rfl
      | cons k l ih =>
        rw [List.mapM_cons, List.mapM_cons, ih fun k hk => hl k (by simp [hk])]
        simp only [chargeSum_clip q a (hl k (by simp))]
    exact this _ fun k hk => by simpa using hk
  · rfl

/-- The object, with clipped displacement arrays. -/
def clipBoot (b : Boot K) : Boot K := { b with displacements := b.displacements.map clip }

/-- The same with the state of the random generator. -/
def clipState (p : Boot K × G) : Boot K × G := (clipBoot p.1, p.2)

/-- The quantity does not look outside of the shape. -/
def Quantity.Proper (Q : Quantity K) : Prop := ∀ a, Q.sample (clip a) = Q.sample a

theorem bootstrapBlock_clip (sq : K → K) (o : Oracle K G) (opt : BootOpts K) (Q : Quantity K) (nO : List K) (i : ℕ) (a : Arr3 K) (l : List K)
    (b : Boot K) (g : G) : bootstrapBlock sq o opt Q nO i (clip a) l (clipBoot b) g = (bootstrapBlock sq o opt Q nO i a l b g).map clipState := by
  unfold bootstrapBlock
  split_ifs
  · cases pyGet nO i with
    | error e => rfl
    | ok no =>
    simp only [bind, Except.bind]
    have e0 : (clip a).n0 = a.n0 := rfl
    rw [e0]
    cases Q.eff no a.n0 with
    | none => rfl
    | some eff =>
    dsimp only
    cases sampleUntilNormal o l eff opt.nResamples opt.maxResamples opt.alpha g with
    | error e => rfl
    | ok r => rfl
  · rfl

theorem varianceBlock_clip (sq : K → K) (o : Oracle K G) (opt : BootOpts K) (Q : Quantity K) (nO : List K) (i : ℕ) (a : Arr3 K) (l : List K)
    (b : Boot K) : varianceBlock sq o opt Q nO i (clip a) l (clipBoot b) = (varianceBlock sq o opt Q nO i a l b).map clipBoot := by
  unfold varianceBlock
  split_ifs
  · cases o.reblock l with
    | error e => rfl
    | ok mv =>
    simp only [bind, Except.bind]
    have e0 : (clipBoot b).v = b.v := rfl
    rw [e0]
    cases pyGet (b.v ++ [some mv.2]) i with
    | error e => rfl
    | ok vi => rfl
  · cases npMean l with
    | none => rfl
    | some mean =>
    dsimp only
    cases pyGet nO i with
    | error e => rfl
    | ok no =>
    simp only [bind, Except.bind]
    have e0 : (clipBoot b).v = b.v := rfl
    have e1 : (clip a).n0 = a.n0 := rfl
    rw [e0, e1]
    cases pyGet (b.v ++ [npDiv (npVar1 l) (Q.eff no a.n0)]) i with
    | error e => rfl
    | ok vi => rfl

theorem pyGet_map {α β : Type} (f : α → β) (l : List α) (i : ℕ) : pyGet (l.map f) i = (pyGet l i).map f := by
  unfold pyGet
  rw [List.getElem?_map]
  cases l[i]? <;> rfl

theorem observe_clip (sq : K → K) (o : Oracle K G) (opt : BootOpts K) {Q : Quantity K} (hQ : Q.Proper) (nO : List K) (bg : Boot K × G) (i : ℕ) :
    observe sq o opt Q nO (clipState bg) i = (observe sq o opt Q nO bg i).map clipState := by
  obtain ⟨b, g⟩ := bg
  unfold observe
  have e0 : (clipState (b, g)).1.displacements = b.displacements.map clip := rfl
  have e1 : (clipState (b, g)).1.axes = b.axes := rfl
  have e2 : (clipState (b, g)).1.euclid = b.euclid := rfl
  rw [e0, pyGet_map]
  cases pyGet b.displacements i with
  | error e => rfl
  | ok a =>
  simp only [bind, Except.bind, Except.map, e1, e2, dSquared_clip, hQ a]
  cases Q.sample a with
  | error e => rfl
  | ok l =>
  dsimp only
  split_ifs
  · rfl
  · have h1 := bootstrapBlock_clip sq o opt Q nO i a l { b with euclid := b.euclid ++ [(dSquared b.axes a).map sq] } g
    erw [h1]
    cases bootstrapBlock sq o opt Q nO i a l { b with euclid := b.euclid ++ [(dSquared b.axes a).map sq] } g with
    | error e => rfl
    | ok r =>
    obtain ⟨b2, g2⟩ := r
    simp only [Except.map, clipState]
    rw [varianceBlock_clip]
    cases varianceBlock sq o opt Q nO i a l b2 with
    | error e => rfl
    | ok b3 =>
    simp only [Except.map]
    have e3 : (clipBoot b3).deltaT = b3.deltaT := rfl
    rw [e3]
    cases pyGet b3.deltaT i with
    | error e => rfl
    | ok t => rfl

theorem observeAll_clip (sq : K → K) (o : Oracle K G) (opt : BootOpts K) {Q : Quantity K} (hQ : Q.Proper) (nO : List K) (count : ℕ) (b : Boot K) (g : G) :
    observeAll sq o opt Q nO count (clipBoot b) g = (observeAll sq o opt Q nO count b g).map clipState := by
  have key : ∀ (l : List ℕ) (bg : Boot K × G), l.foldlM (observe sq o opt Q nO) (clipState bg) = (l.foldlM (observe sq o opt Q nO) bg).map clipState := by
    intro l
    induction l with
    | nil => intro bg; rfl
    | cons i l ih =>
      intro bg
      rw [List.foldlM_cons, List.foldlM_cons, observe_clip sq o opt hQ]
      cases observe sq o opt Q nO bg i with
      | error e => rfl
      | ok r => exact ih r
  unfold observeAll
  have := key (List.range count) (b, g)
  have h2 : (clipBoot b, g) = clipState (b, g) := rfl
  rw [h2, this]
  cases (List.range count).foldlM (observe sq o opt Q nO) (b, g) with
  | error e => rfl
  | ok r => rfl

theorem bootInit_clip (deltaT : List K) (disp : List (Arr3 K)) (nO : List K) (sub : ℤ) (dimension : String) :
    bootInit deltaT (disp.map clip) nO sub dimension = (bootInit deltaT disp nO sub dimension).map clipBoot := by
  unfold bootInit
  rw [pyStride_map]
  cases pyStride sub disp with
  | error e => rfl
  | ok ds =>
  simp only [bind, Except.bind, Except.map]
  cases pyStride sub deltaT with
  | error e => rfl
  | ok dts =>
  cases ds with
  | nil => rfl
  | cons d0 ds =>
  simp only [List.map_cons]
  cases dimensionSlice dimension with
  | error e => rfl
  | ok sel => rfl

theorem msd_clip (sq : K → K) (o : Oracle K G) (opt : BootOpts K) (g : G) (deltaT : List K) (disp : List (Arr3 K)) (nO : List K) (sub : ℤ)
    (dimension : String) : msdBootstrap sq o opt g deltaT (disp.map clip) nO sub dimension =
      (msdBootstrap sq o opt g deltaT disp nO sub dimension).map clipState := by
  unfold msdBootstrap
  rw [bootInit_clip]
  cases bootInit deltaT disp nO sub dimension with
  | error e => rfl
  | ok b =>
  have := observeAll_clip sq o opt (Q := msdQuantity b.axes) (fun a => congrArg Except.ok (dSquared_clip _ _)) nO b.displacements.length b g
  simpa only [bind, Except.bind, Except.map, clipBoot, List.length_map] using this

theorem mstd_clip (sq : K → K) (o : Oracle K G) (opt : BootOpts K) (g : G) (deltaT : List K) (disp : List (Arr3 K)) (nO : List K) (sub : ℤ)
    (dimension : String) : mstdBootstrap sq o opt g deltaT (disp.map clip) nO sub dimension =
      (mstdBootstrap sq o opt g deltaT disp nO sub dimension).map clipState := by
  unfold mstdBootstrap
  rw [bootInit_clip]
  cases bootInit deltaT disp nO sub dimension with
  | error e => rfl
  | ok b =>
  have := observeAll_clip sq o opt (Q := mstdQuantity b.axes) (fun a => congrArg Except.ok (collMotion_clip _ _)) nO (b.displacements.length / 2) b g
  simpa only [bind, Except.bind, Except.map, clipBoot, List.length_map] using this

theorem mscd_clip (sq : K → K) (o : Oracle K G) (opt : BootOpts K) (g : G) (deltaT : List K) (disp : List (Arr3 K)) (charge : Charge K) (nO : List K)
    (sub : ℤ) (dimension : String) : mscdBootstrap sq o opt g deltaT (disp.map clip) charge nO sub dimension =
      (mscdBootstrap sq o opt g deltaT disp charge nO sub dimension).map clipState := by
  unfold mscdBootstrap
  rw [bootInit_clip]
  cases bootInit deltaT disp nO sub dimension with
  | error e => rfl
  | ok b =>
  have := observeAll_clip sq o opt (Q := mscdQuantity (charge.expand ((b.displacements.map Arr3.n0).headD 0))) (fun a => chgMotion_clip _ _) nO
    (b.displacements.length / 2) b g
  simpa only [bind, Except.bind, Except.map, clipBoot, List.length_map, List.map_map, Function.comp_def, clip] using this

/-- The analyzer and the generator state, with clipped arrays. -/
def clipResult (p : Analyzer K × G) : Analyzer K × G := (⟨clipBase p.1.toBase, clipBoot p.1.diff⟩, p.2)

theorem diffusion_clip (sq : K → K) (o : Oracle K G) (g : G) (U : UncParams K) (base : PyM (Base K)) :
    (diffusionAnalyzer sq o g U base).map clipResult = diffusionAnalyzer sq o g U (base.map clipBase) := by
  unfold diffusionAnalyzer
  cases base with
  | error e => rfl
  | ok B =>
  have := msd_clip sq o U.opt g B.deltaT B.disp3d B.nO U.sub U.dimension
  simp only [bind, Except.bind, Except.map, clipBase] at this ⊢
  rw [this]
  cases msdBootstrap sq o U.opt g B.deltaT B.disp3d B.nO U.sub U.dimension <;> rfl

theorem jump_clip (sq : K → K) (o : Oracle K G) (g : G) (U : UncParams K) (base : PyM (Base K)) :
    (jumpAnalyzer sq o g U base).map clipResult = jumpAnalyzer sq o g U (base.map clipBase) := by
  unfold jumpAnalyzer
  cases base with
  | error e => rfl
  | ok B =>
  have := mstd_clip sq o U.opt g B.deltaT B.disp3d B.nO U.sub U.dimension
  simp only [bind, Except.bind, Except.map, clipBase] at this ⊢
  rw [this]
  cases mstdBootstrap sq o U.opt g B.deltaT B.disp3d B.nO U.sub U.dimension <;> rfl

theorem conductivity_clip (sq : K → K) (o : Oracle K G) (g : G) (U : UncParams K) (charge : Charge K) (base : PyM (Base K)) :
    (conductivityAnalyzer sq o g U charge base).map clipResult = conductivityAnalyzer sq o g U charge (base.map clipBase) := by
  unfold conductivityAnalyzer
  cases base with
  | error e => rfl
  | ok B =>
  have := mscd_clip sq o U.opt g B.deltaT B.disp3d charge B.nO U.sub U.dimension
  simp only [bind, Except.bind, Except.map, clipBase] at this ⊢
  rw [this]
  cases mscdBootstrap sq o U.opt g B.deltaT B.disp3d charge B.nO U.sub U.dimension <;> rfl

end Kinisi
