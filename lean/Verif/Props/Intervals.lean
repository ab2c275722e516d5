import Verif.Spec.Intervals
import Verif.Props.Species

/-!
# C125: the choice of the time intervals
-/

set_option linter.unusedSectionVars false
set_option linter.unusedVariables false

namespace Kinisi
open Spec
variable {K : Type} [Field K] [LinearOrder K] [IsStrictOrderedRing K] [FloorRing K] {G : Type}

/-! ## The displacements of an interval depend on the interval only -/

/-- What the analyzers get: the displacements are a function of the interval, the times are proportional to it. -/
def OnIntervals (D : ℤ → Arr3 K) (c : K) (N : ℕ) (b : Base K) : Prop :=
  ∃ ti : List ℤ, (∀ τ ∈ ti, τ ≠ 0) ∧ b.deltaT = ti.map (fun τ : ℤ => (τ : K) * c) ∧ b.disp3d = ti.map D ∧ (∀ τ ∈ ti, (D τ).n0 = N) ∧
    b.nO = ti.map fun τ : ℤ => (((N : ℤ) * ti.getLastD 0 : ℤ) : K) / (τ : K)

/-- The displacements over an interval, for all starting points. -/
def movesOf (dc : Arr3 K) (rows : List ℕ) (τ : ℤ) : Arr3 K :=
  match multiOrigin dc rows τ with
  | .ok d => d
  | .error _ => ⟨0, 0, fun _ _ _ => 0⟩

theorem oneInterval_moves {fl : K → K} {idx : List ℤ} {last : ℤ} {dc : Arr3 K} {p : ℤ × ℕ} {x : Option (Arr3 K × K)}
    (h : oneInterval fl idx "multi-origin" last dc p = .ok x) :
    ∃ rows, idx.mapM (npIdx dc.n0) = .ok rows ∧ p.1 ≠ 0 ∧ (movesOf dc rows p.1).n0 = rows.length ∧
      (rows.length ≤ 1 ∧ x = none ∨ rows.length = 1 ∧ x = some (movesOf dc rows p.1, fl ((((rows.length : ℤ) * last : ℤ) : K) / (p.1 : K))) ∨
        2 ≤ rows.length ∧ x = some (movesOf dc rows p.1, fl ((((rows.length : ℤ) * last : ℤ) : K) / (p.1 : K)))) := by
  unfold oneInterval at h
  cases e : idx.mapM (npIdx dc.n0) with
  | error y => rw [e] at h; cases h
  | ok rows =>
  rw [e] at h
  have hne : ("multi-origin" : String) ≠ "single-origin" := by decide
  simp only [bind, Except.bind, if_neg hne, if_true] at h
  cases hm : multiOrigin dc rows p.1 with
  | error y => rw [hm] at h; cases h
  | ok d =>
  rw [hm] at h
  have hd : movesOf dc rows p.1 = d := by unfold movesOf; rw [hm]
  have hn : d.n0 = rows.length ∧ 1 ≤ d.n1 := by
    unfold multiOrigin at hm
    cases hf : npIdx dc.n1 (p.1 - 1) with
    | error y => rw [hf] at hm; cases hm
    | ok first =>
    rw [hf] at hm
    simp only [bind, Except.bind] at hm
    split_ifs at hm
    obtain rfl := Except.ok.inj hm
    exact ⟨rfl, Nat.le_add_right _ _⟩
  dsimp only at h
  by_cases hz : p.1 = 0
  · rw [if_pos hz] at h; cases h
  rw [if_neg hz] at h
  refine ⟨rows, rfl, hz, by rw [hd]; exact hn.1, ?_⟩
  rw [hd]
  rw [hn.1] at h
  by_cases h2 : 2 ≤ rows.length
  · refine .inr (.inr ⟨h2, ?_⟩)
    rw [if_neg] at h
    · exact (Except.ok.inj h).symm
    have hs : 1 ≤ strideCount d.n1 p.1 := by
      unfold strideCount
      have := Int.natAbs_pos.2 hz
      rw [Nat.le_div_iff_mul_le this]
      omega
    have := Nat.mul_le_mul h2 hs
    omega
  · by_cases hc : rows.length * strideCount d.n1 p.1 ≤ 1
    · rw [if_pos hc] at h
      exact .inl ⟨by omega, (Except.ok.inj h).symm⟩
    · rw [if_neg hc] at h
      have : rows.length ≠ 0 := fun h0 => hc (by rw [h0, zero_mul]; omega)
      exact .inr (.inl ⟨by omega, (Except.ok.inj h).symm⟩)

theorem init_intervals {E : Num K} (hfl : E.fl = id) {P : Params K} (hsm : P.sampling = "multi-origin") {w : Bool} {disp : Arr3 K} {sel : Selection}
    {dc : Arr3 K} (hdc : correctDriftSeq sel.drift disp = .ok dc) {rows : List ℕ} (hrows : sel.indices.mapM (npIdx dc.n0) = .ok rows)
    (h2 : 2 ≤ rows.length) {r : Parsed K} (h : parserInit E P w disp sel = .ok r) :
    OnIntervals (movesOf dc rows) (P.stepSkip.val * P.timeStep.val) rows.length (baseOf r) := by
  obtain ⟨dc', ti, xs, a1, a2, a3, a4, a5, a6⟩ := parserInit_mapM h
  rw [hdc] at a1
  cases a1
  rw [hfl, hsm] at a3
  have key : ∀ (l : List (ℤ × ℕ)) (last : ℤ) (ys : List (Option (Arr3 K × K))), l.mapM (oneInterval id sel.indices "multi-origin" last dc) = .ok ys →
      (∀ τ ∈ l.map Prod.fst, τ ≠ 0 ∧ (movesOf dc rows τ).n0 = rows.length) ∧
      ys.filterMap id = (l.map Prod.fst).map fun τ : ℤ => (movesOf dc rows τ, (((rows.length : ℤ) * last : ℤ) : K) / (τ : K)) := by
    intro l last
    induction l with
    | nil => intro ys hy; cases hy; simp
    | cons p l ih =>
      intro ys hy
      rw [List.mapM_cons] at hy
      cases e1 : oneInterval id sel.indices "multi-origin" last dc p with
      | error e => rw [e1] at hy; cases hy
      | ok x =>
      cases e2 : l.mapM (oneInterval id sel.indices "multi-origin" last dc) with
      | error e => simp only [e1, bind, Except.bind, e2] at hy; cases hy
      | ok zs =>
      simp only [e1, bind, Except.bind, e2] at hy
      obtain rfl := Except.ok.inj hy
      obtain ⟨i1, i2⟩ := ih zs e2
      obtain ⟨rows', b1, b2, b3, b4⟩ := oneInterval_moves e1
      rw [hrows] at b1
      cases b1
      have hx : x = some (movesOf dc rows p.1, (((rows.length : ℤ) * last : ℤ) : K) / (p.1 : K)) := by
        rcases b4 with ⟨h, -⟩ | ⟨h, -⟩ | ⟨-, h⟩
        · omega
        · omega
        · exact h
      refine ⟨?_, ?_⟩
      · intro τ hτ
        rw [List.map_cons, List.mem_cons] at hτ
        rcases hτ with rfl | hτ
        · exact ⟨b2, b3⟩
        · exact i1 τ hτ
      · rw [hx, List.map_cons, List.map_cons, ← i2]
        rfl
  obtain ⟨k1, k2⟩ := key _ _ _ a3
  rw [List.zipIdx_map_fst] at k1 k2
  refine ⟨ti, fun τ hτ => (k1 τ hτ).1, ?_, ?_, fun τ hτ => (k1 τ hτ).2, ?_⟩
  · simp only [baseOf, a4]
    refine List.map_congr_left fun τ _ => ?_
    rw [hfl]
    unfold deltaTOf
    rw [PyNum.val_mul_id, PyNum.val_mul_id]
    simp only [PyNum.val]
    ring
  · simp only [baseOf, a5, k2, List.map_map]
    rfl
  · simp only [baseOf, a6, k2, List.map_map]
    rfl

/-- The number of rows, from the displacements of any interval. -/
theorem init_rows {E : Num K} {P : Params K} (hsm : P.sampling = "multi-origin") {w : Bool} {disp : Arr3 K} {sel : Selection} {r : Parsed K}
    (h : parserInit E P w disp sel = .ok r) {a : Arr3 K} (ha : a ∈ r.disp3d) :
    ∃ dc rows, correctDriftSeq sel.drift disp = .ok dc ∧ sel.indices.mapM (npIdx dc.n0) = .ok rows ∧ a.n0 = rows.length := by
  obtain ⟨dc, ti, xs, a1, a2, a3, a4, a5, a6⟩ := parserInit_mapM h
  rw [a5] at ha
  obtain ⟨y, hy, rfl⟩ := List.mem_map.mp ha
  obtain ⟨x, hx, hxy⟩ := List.mem_filterMap.mp hy
  obtain ⟨k, hk, rfl⟩ := List.getElem_of_mem hx
  obtain ⟨hl, hall⟩ := mapM_except_inv a3
  have hp := hall k (by omega) hk
  rw [hsm] at hp
  obtain ⟨rows, b1, b2, b3, b4⟩ := oneInterval_moves hp
  refine ⟨dc, rows, a1, b1, ?_⟩
  simp only [id] at hxy
  rw [hxy] at b4
  rcases b4 with ⟨-, h⟩ | ⟨-, h⟩ | ⟨-, h⟩
  · cases h
  · rw [Option.some.inj h]; exact b3
  · rw [Option.some.inj h]; exact b3

/-- Both analyses get the displacements from the same function of the interval. -/
def BothOn (c : K) (b b' : Base K) : Prop := ∃ (D : ℤ → Arr3 K) (N : ℕ), 2 ≤ N ∧ OnIntervals D c N b ∧ OnIntervals D c N b'

theorem build_intervals {E : Num K} (hfl : E.fl = id) {P : Params K} (hsm : P.sampling = "multi-origin") {S : Select K} {γ γ' : Grid K} {st : Frame K}
    {coords : List (List (V3 K))} {latt : List (M3 K)} {r r' : Parsed K} (h : buildParser E (onGrid P γ) S st coords latt = .ok r)
    (h' : buildParser E (onGrid P γ') S st coords latt = .ok r') (hne : r.disp3d ≠ []) (h2 : ∀ a ∈ r.disp3d, 2 ≤ a.n0) :
    BothOn (P.stepSkip.val * P.timeStep.val) (baseOf r) (baseOf r') := by
  obtain ⟨cs, sel, w, disp, r0, e1, e2, e3, rfl⟩ := buildParser_inv h
  obtain ⟨cs', sel', w', disp', r0', e1', e2', e3', rfl⟩ := buildParser_inv h'
  rw [e1] at e1'
  cases e1'
  rw [e2] at e2'
  cases e2'
  obtain ⟨a, ha⟩ := List.exists_mem_of_ne_nil _ hne
  obtain ⟨dc, rows, i1, i2, i3⟩ := init_rows (P := onGrid P γ) hsm e3 ha
  have hr : 2 ≤ rows.length := i3 ▸ h2 a ha
  obtain ⟨ti, t⟩ := init_intervals (P := onGrid P γ) hfl hsm i1 i2 hr e3
  obtain ⟨ti', t'⟩ := init_intervals (P := onGrid P γ') hfl hsm i1 i2 hr e3'
  exact ⟨_, _, hr, ⟨ti, t⟩, ⟨ti', t'⟩⟩

theorem pymatgen_intervals {E : Num K} (hfl : E.fl = id) {P : Params K} (hsm : P.sampling = "multi-origin") {S : Select K} {γ γ' : Grid K} {k : ℤ}
    {fr : List (Frame K)} {r r' : Parsed K} (h : pymatgenParser E (onGrid P γ) S k fr = .ok r) (h' : pymatgenParser E (onGrid P γ') S k fr = .ok r')
    (hne : r.disp3d ≠ []) (h2 : ∀ a ∈ r.disp3d, 2 ≤ a.n0) :
    k ≠ 0 ∧ BothOn (P.stepSkip.val * k * P.timeStep.val / 1000) (baseOf r) (baseOf r') := by
  unfold pymatgenParser at h h'
  cases e : pyStride k fr with
  | error x => rw [e] at h; cases h
  | ok fs =>
  have hk : k ≠ 0 := by
    rintro rfl
    simp [pyStride] at e
  rw [e] at h h'
  simp only [bind, Except.bind] at h h'
  cases fs with
  | nil => cases h
  | cons f0 rest =>
  simp only [structureCoordsLatt] at h h'
  split at h
  · cases h
  rename_i z hz
  split at h'
  · cases h'
  rename_i z' hz'
  split_ifs at h h'
  cases h
  cases h'
  obtain ⟨D, N, hN, ⟨ti, t1, t2, t3, t4, t5⟩, ⟨ti', s1, s2, s3, s4, s5⟩⟩ := build_intervals (P := { P with stepSkip := P.stepSkip.mul E.fl (.int k) })
    hfl hsm hz hz' hne h2
  have hc : (P.stepSkip.mul E.fl (.int k)).val = P.stepSkip.val * k := by rw [hfl, PyNum.val_mul_id]; rfl
  have hmul : ∀ l : List ℤ, ((l.map fun τ : ℤ => (τ : K) * ((P.stepSkip.mul E.fl (.int k)).val * P.timeStep.val)).map fun t => E.fl (t * E.fl (1 / 10 ^ 3))) =
      l.map fun τ : ℤ => (τ : K) * (P.stepSkip.val * k * P.timeStep.val / 1000) := by
    intro l
    rw [List.map_map]
    refine List.map_congr_left fun τ _ => ?_
    simp only [Function.comp, hc]
    rw [hfl]
    simp only [id]
    ring
  refine ⟨hk, D, N, hN, ⟨ti, t1, ?_, t3, t4, t5⟩, ⟨ti', s1, ?_, s3, s4, s5⟩⟩
  · simp only [baseOf] at t2 ⊢
    rw [t2]
    exact hmul ti
  · simp only [baseOf] at s2 ⊢
    rw [s2]
    exact hmul ti'

theorem reads_intervals {E : Num K} (hfl : E.fl = id) {P : Params K} (hpos : P.stepSkip.val * P.timeStep.val ≠ 0) (hsm : P.sampling = "multi-origin")
    {S : Select K} {rd : Grid K → PyM (Base K)} (hr : ReadsGrid E P S rd) {γ γ' : Grid K} {b b' : Base K} (h : rd γ = .ok b) (h' : rd γ' = .ok b')
    (hne : b.disp3d ≠ []) (h2 : ∀ a ∈ b.disp3d, 2 ≤ a.n0) : ∃ c : K, c ≠ 0 ∧ BothOn c b b' := by
  have h1000 : (1000 : K) ≠ 0 := by norm_num
  have hs := left_ne_zero_of_mul hpos
  have ht := right_ne_zero_of_mul hpos
  have hcz : ∀ {k : ℤ}, k ≠ 0 → P.stepSkip.val * k * P.timeStep.val ≠ 0 := fun hk =>
    mul_ne_zero (mul_ne_zero hs (by exact_mod_cast hk)) ht
  cases hr with
  | ase k fr =>
    simp only [fromAse, analyzerFrom, Traj.asOne, bind, Except.bind] at h h'
    split at h
    · cases h
    rename_i z hz
    split at h'
    · cases h'
    rename_i z' hz'
    cases h
    cases h'
    unfold aseParser at hz hz'
    cases e : pyStride k fr with
    | error x => rw [e] at hz; cases hz
    | ok fs =>
    rw [e] at hz hz'
    simp only [bind, Except.bind] at hz hz'
    cases fs with
    | nil => cases hz
    | cons f0 rest => exact ⟨_, hpos, build_intervals hfl hsm hz hz' hne h2⟩
  | pymatgen k fr =>
    simp only [fromPymatgen, analyzerFrom, Traj.asOne, bind, Except.bind] at h h'
    split at h
    · cases h
    rename_i z hz
    split at h'
    · cases h'
    rename_i z' hz'
    cases h
    cases h'
    obtain ⟨hk, hb⟩ := pymatgen_intervals hfl hsm hz hz' hne h2
    exact ⟨_, div_ne_zero (hcz hk) h1000, hb⟩
  | xdatcar structures k x =>
    simp only [fromXdatcar, analyzerFrom, Traj.asOne, bind, Except.bind] at h h'
    split at h
    · cases h
    rename_i z hz
    split at h'
    · cases h'
    rename_i z' hz'
    cases h
    cases h'
    obtain ⟨hk, hb⟩ := pymatgen_intervals hfl hsm hz hz' hne h2
    exact ⟨_, div_ne_zero (hcz hk) h1000, hb⟩
  | file read k name =>
    simp only [fromFile, analyzerFrom, Traj.asOne, bind, Except.bind] at h h'
    cases e : read name with
    | error x => rw [e] at h; cases h
    | ok fr =>
    rw [e] at h h'
    dsimp only at h h'
    split at h
    · cases h
    rename_i z hz
    split at h'
    · cases h'
    rename_i z' hz'
    cases h
    cases h'
    obtain ⟨hk, hb⟩ := pymatgen_intervals hfl hsm hz hz' hne h2
    exact ⟨_, div_ne_zero (hcz hk) h1000, hb⟩
  | mda subAtoms k types fr =>
    simp only [fromUniverse, analyzerFrom, Traj.asOne, bind, Except.bind] at h h'
    split at h
    · cases h
    rename_i z hz
    split at h'
    · cases h'
    rename_i z' hz'
    cases h
    cases h'
    unfold mdaParser at hz hz'
    dsimp only at hz hz'
    replace hz := of_ite_error hz
    replace hz' := of_ite_error hz'
    cases e : pyStride k fr with
    | error x => rw [e] at hz; cases hz
    | ok fs =>
    have hk : k ≠ 0 := by
      rintro rfl
      simp [pyStride] at e
    rw [e] at hz hz'
    simp only [bind, Except.bind] at hz hz'
    cases e2 : fs.mapM (mdaFrame types subAtoms) with
    | error x => rw [e2] at hz; cases hz
    | ok gs =>
    rw [e2] at hz hz'
    dsimp only at hz hz'
    cases gs with
    | nil => cases hz
    | cons f0 rest =>
    have hb := build_intervals (P := { P with stepSkip := P.stepSkip.mul E.fl (.int k) }) hfl hsm hz hz' hne h2
    have hc : (P.stepSkip.mul E.fl (.int k)).val = P.stepSkip.val * k := by rw [hfl, PyNum.val_mul_id]; rfl
    dsimp only at hb
    rw [hc] at hb
    exact ⟨_, hcz hk, hb⟩

/-! ## The recorded entries -/

theorem recorded_intervals {sq : K → K} {o : Oracle K G} {opt opt' : BootOpts K} (hopt : opt'.block = opt.block) {Q : Quantity K} {B B' : Base K} {c : K}
    (hc : c ≠ 0) {D : ℤ → Arr3 K} {N : ℕ} (hN : 2 ≤ N) (hB : OnIntervals D c N B) (hB' : OnIntervals D c N B') {sub sub' : ℤ} {d : String} {b0 b0' : Boot K}
    (hi : bootInit B.deltaT B.disp3d B.nO sub d = .ok b0) (hi' : bootInit B'.deltaT B'.disp3d B'.nO sub' d = .ok b0') {P P' : ℕ} {b b' : Boot K}
    (hrec : Recorded sq o opt Q B.nO b0 P b) (hrec' : Recorded sq o opt' Q B'.nO b0' P' b')
    (heff : ∃ e : K, e ≠ 0 ∧ ∀ no, Q.eff no N = some (no * e))
    {i j : ℕ} {t : K} (hti : b.dt[i]? = some t) (htj : b'.dt[j]? = some t) :
    SameEntry i j b b' ∧ (opt.block = true → ∃ x, b.v[i]? = some x ∧ b'.v[j]? = some x) ∧
      (opt.block = false → sub = 1 → sub' = 1 → B.deltaT.getLastD 0 ≠ 0 ∧ B'.deltaT.getLastD 0 ≠ 0 ∧
        ∃ x : K, b.v[i]? = some (some (x / B.deltaT.getLastD 0)) ∧ b'.v[j]? = some (some (x / B'.deltaT.getLastD 0))) := by
  obtain ⟨ds, dts, sel, d0, e1, e2, e3, e4, rfl⟩ := bootInit_inv hi
  obtain ⟨ds', dts', sel', d0', e1', e2', e3', e4', rfl⟩ := bootInit_inv hi'
  rw [e3] at e3'
  cases e3'
  obtain ⟨ti, t1, t2, t3, t4, t5⟩ := hB
  obtain ⟨ti', s1, s2, s3, s4, s5⟩ := hB'
  have hiP : i < P := by
    by_contra hh
    rw [List.getElem?_eq_none (by rw [hrec.ldt]; omega)] at hti
    cases hti
  have hjP : j < P' := by
    by_contra hh
    rw [List.getElem?_eq_none (by rw [hrec'.ldt]; omega)] at htj
    cases htj
  obtain ⟨a, l, m, w, u, a1, a2, a3, a4, a5, a6, a7, a8, a9, a10, a11⟩ := hrec.entry i hiP
  obtain ⟨a', l', m', w', u', b1, b2, b3, b4, b5, b6, b7, b8, b9, b10, b11⟩ := hrec'.entry j hjP
  dsimp only at a1 a5 b1 b5 a9 a11 b9 b11
  rw [hti] at a10
  rw [htj] at b10
  cases a10
  cases b10
  rw [t3, pyStride_map] at e1
  rw [t2, pyStride_map] at e2
  rw [s3, pyStride_map] at e1'
  rw [s2, pyStride_map] at e2'
  cases hq : pyStride sub ti with
  | error x => rw [hq] at e1; cases e1
  | ok q =>
  cases hq' : pyStride sub' ti' with
  | error x => rw [hq'] at e1'; cases e1'
  | ok q' =>
  rw [hq] at e1 e2
  rw [hq'] at e1' e2'
  obtain rfl := Except.ok.inj e1
  obtain rfl := Except.ok.inj e2
  obtain rfl := Except.ok.inj e1'
  obtain rfl := Except.ok.inj e2'
  rw [List.getElem?_map] at a1 a5 b1 b5
  cases hτ : q[i]? with
  | none => rw [hτ] at a1; cases a1
  | some τ =>
  cases hτ' : q'[j]? with
  | none => rw [hτ'] at b1; cases b1
  | some τ' =>
  rw [hτ] at a1 a5
  rw [hτ'] at b1 b5
  simp only [Option.map_some, Option.some.injEq] at a1 a5 b1 b5
  have hττ : τ' = τ := by
    have : (τ' : K) * c = (τ : K) * c := b5.trans a5.symm
    exact_mod_cast mul_right_cancel₀ hc this
  subst hττ
  subst a1
  subst b1
  rw [a2] at b2
  cases b2
  have hm : m' = m := by
    unfold Estimate at a4 b4
    rw [hopt] at b4
    by_cases hb : opt.block = true
    · rw [if_pos hb] at a4 b4
      obtain ⟨x, x1, -⟩ := a4
      obtain ⟨y, y1, -⟩ := b4
      rw [x1] at y1
      cases y1
      rfl
    · rw [if_neg hb] at a4 b4
      obtain ⟨x, -, x1, -⟩ := a4
      obtain ⟨y, -, y1, -⟩ := b4
      rw [x1] at y1
      cases y1
      rfl
  subst hm
  refine ⟨⟨⟨_, a6, b6⟩, ⟨_, a9, b9⟩, ⟨_, a11, b11⟩⟩, fun hb => ?_, fun hb hsub hsub' => ?_⟩
  · unfold Estimate at a4 b4
    rw [hopt] at b4
    rw [if_pos hb] at a4 b4
    obtain ⟨x, x1, rfl⟩ := a4
    obtain ⟨y, y1, rfl⟩ := b4
    rw [x1] at y1
    cases y1
    exact ⟨_, a7, b7⟩
  · subst hsub
    subst hsub'
    rw [pyStride_one] at hq hq'
    obtain rfl := Except.ok.inj hq
    obtain rfl := Except.ok.inj hq'
    unfold Estimate at a4 b4
    rw [hopt] at b4
    rw [if_neg (by simp [hb])] at a4 b4
    obtain ⟨x, x1, -, rfl⟩ := a4
    obtain ⟨y, y1, -, rfl⟩ := b4
    rw [t5, List.getElem?_map, hτ] at x1
    rw [s5, List.getElem?_map, hτ'] at y1
    simp only [Option.map_some, Option.some.injEq] at x1 y1
    have hmem := List.mem_of_getElem? hτ
    have hmem' := List.mem_of_getElem? hτ'
    have hn : (D τ').n0 = N := t4 _ hmem
    obtain ⟨e, he, heff⟩ := heff
    rw [hn, heff] at a7 b7
    have hτ0 : (τ' : K) ≠ 0 := by exact_mod_cast t1 _ hmem
    have hN0 : (N : K) ≠ 0 := by
      have : N ≠ 0 := by omega
      exact_mod_cast this
    have last : ∀ l : List ℤ, τ' ∈ l → (∀ τ ∈ l, τ ≠ 0) → (l.map fun τ : ℤ => (τ : K) * c).getLastD 0 = (l.getLastD 0 : ℤ) * c ∧ ((l.getLastD 0 : ℤ) : K) ≠ 0 := by
      intro l hl h0
      have hne : l ≠ [] := List.ne_nil_of_mem hl
      obtain ⟨p, z, rfl⟩ : ∃ p z, l = p ++ [z] := ⟨l.dropLast, l.getLast hne, (List.dropLast_append_getLast hne).symm⟩
      have hz := h0 z (by simp)
      refine ⟨by simp, ?_⟩
      simpa using hz
    obtain ⟨u1, u2⟩ := last ti hmem t1
    obtain ⟨v1, v2⟩ := last ti' hmem' s1
    rw [t2, s2, u1, v1]
    have hvar : ∃ x : K, npVar1 l = some x := by
      unfold npVar1
      rw [if_neg (by omega)]
      exact ⟨_, rfl⟩
    obtain ⟨z, hz⟩ := hvar
    have quot : ∀ {L : ℤ}, ((L : ℤ) : K) ≠ 0 → npDiv (some z) (some ((((N : ℤ) * L : ℤ) : K) / (τ' : K) * e)) = some (z * τ' * c / (N * e) / (L * c)) := by
      intro L hL
      unfold npDiv
      simp only [Option.bind_some]
      have hx : (((N : ℤ) * L : ℤ) : K) / (τ' : K) * e ≠ 0 := by
        push_cast
        exact mul_ne_zero (div_ne_zero (mul_ne_zero hN0 hL) hτ0) he
      rw [if_neg hx]
      congr 1
      push_cast
      field_simp
    refine ⟨mul_ne_zero u2 hc, mul_ne_zero v2 hc, z * τ' * c / (N * e), ?_, ?_⟩
    · rw [a7, hz, ← x1, quot u2]
    · rw [b7, hz, ← y1, quot v2]

/-! ## C125 -/

theorem disp_ne_nil {deltaT : List K} {disp : List (Arr3 K)} {nO : List K} {sub : ℤ} {d : String} {b0 : Boot K}
    (h : bootInit deltaT disp nO sub d = .ok b0) : disp ≠ [] := by
  rintro rfl
  obtain ⟨ds, dts, sel, d0, e1, -, -, e4, -⟩ := bootInit_inv h
  have hds : ds = [] := by
    unfold pyStride at e1
    split_ifs at e1
    · rw [← Except.ok.inj e1]; simp [stride]
    · rw [← Except.ok.inj e1]; simp [stride]
  rw [hds] at e4
  cases e4

/-- **C125, what holds (MSD).** One trajectory of any format is analysed with two choices of the intervals (bounds, number, spacing, `sub_sample_dt`),
two or more atoms, all starting points.  Wherever both analyses have an entry for the same time, MSD, non-Gaussian parameter and distances are the same.
Missing: without blocking the variances are not the same, but in the ratio of the longest intervals. -/
theorem C125_msd_partial (E : Num K) (hfl : E.fl = id) (P : Params K) (hpos : P.stepSkip.val * P.timeStep.val ≠ 0) (hsm : P.sampling = "multi-origin")
    (S : Select K) (rd : Grid K → PyM (Base K)) (hr : ReadsGrid E P S rd) (γ γ' : Grid K) (sq : K → K) (o : Oracle K G) (U U' : UncParams K)
    (hopt : U'.opt.block = U.opt.block) (hdim : U'.dimension = U.dimension) (g₁ g₂ g₁' g₂' : G) (Z Z' : Analyzer K)
    (h : diffusionAnalyzer sq o g₁ U (rd γ) = .ok (Z, g₂)) (h' : diffusionAnalyzer sq o g₁' U' (rd γ') = .ok (Z', g₂'))
    (h2 : ∀ a ∈ Z.disp3d, 2 ≤ a.n0) :
    SameAtTimes U.opt.block (U.sub = 1 ∧ U'.sub = 1) (Z.deltaT.getLastD 0) (Z'.deltaT.getLastD 0) Z.diff Z'.diff := by
  obtain ⟨B, hB, rfl, m⟩ := diffusion_inv h
  obtain ⟨B', hB', rfl, m'⟩ := diffusion_inv h'
  obtain ⟨b0, q, i1, -, i2, -⟩ := msdBootstrap_inv m
  obtain ⟨b0', q', j1, -, j2, -⟩ := msdBootstrap_inv m'
  rw [hdim] at j1
  obtain ⟨c, hc, D, N, hN, k1, k2⟩ := reads_intervals hfl hpos hsm hr hB hB' (disp_ne_nil i1) h2
  have hax : b0'.axes = b0.axes := by
    obtain ⟨_, _, s1, _, _, _, x3, _, rfl⟩ := bootInit_inv i1
    obtain ⟨_, _, s2, _, _, _, y3, _, rfl⟩ := bootInit_inv j1
    rw [x3] at y3
    cases y3
    rfl
  rw [hax] at j2
  intro i j t hi hj
  obtain ⟨p1, p2, p3⟩ := recorded_intervals hopt hc hN k1 k2 i1 j1 i2 j2 ⟨1, one_ne_zero, fun no => by simp [msdQuantity]⟩ hi hj
  exact ⟨p1, p2, fun hb hs => p3 hb hs.1 hs.2⟩

theorem eff_total {N : ℕ} (hN : 2 ≤ N) : ∃ e : K, e ≠ 0 ∧ ∀ no : K, npDiv (some no) (some (N : K)) = some (no * e) := by
  have hN0 : (N : K) ≠ 0 := by
    have : N ≠ 0 := by omega
    exact_mod_cast this
  refine ⟨(N : K)⁻¹, inv_ne_zero hN0, fun no => ?_⟩
  unfold npDiv
  simp [hN0, div_eq_mul_inv]

/-- **C125, what holds (MSTD).** -/
theorem C125_mstd_partial (E : Num K) (hfl : E.fl = id) (P : Params K) (hpos : P.stepSkip.val * P.timeStep.val ≠ 0) (hsm : P.sampling = "multi-origin")
    (S : Select K) (rd : Grid K → PyM (Base K)) (hr : ReadsGrid E P S rd) (γ γ' : Grid K) (sq : K → K) (o : Oracle K G) (U U' : UncParams K)
    (hopt : U'.opt.block = U.opt.block) (hdim : U'.dimension = U.dimension) (g₁ g₂ g₁' g₂' : G) (Z Z' : Analyzer K)
    (h : jumpAnalyzer sq o g₁ U (rd γ) = .ok (Z, g₂)) (h' : jumpAnalyzer sq o g₁' U' (rd γ') = .ok (Z', g₂'))
    (h2 : ∀ a ∈ Z.disp3d, 2 ≤ a.n0) :
    SameAtTimes U.opt.block (U.sub = 1 ∧ U'.sub = 1) (Z.deltaT.getLastD 0) (Z'.deltaT.getLastD 0) Z.diff Z'.diff := by
  obtain ⟨B, hB, rfl, m⟩ := jump_inv h
  obtain ⟨B', hB', rfl, m'⟩ := jump_inv h'
  obtain ⟨b0, q, i1, -, i2, -⟩ := mstdBootstrap_inv m
  obtain ⟨b0', q', j1, -, j2, -⟩ := mstdBootstrap_inv m'
  rw [hdim] at j1
  obtain ⟨c, hc, D, N, hN, k1, k2⟩ := reads_intervals hfl hpos hsm hr hB hB' (disp_ne_nil i1) h2
  have hax : b0'.axes = b0.axes := by
    obtain ⟨_, _, s1, _, _, _, x3, _, rfl⟩ := bootInit_inv i1
    obtain ⟨_, _, s2, _, _, _, y3, _, rfl⟩ := bootInit_inv j1
    rw [x3] at y3
    cases y3
    rfl
  rw [hax] at j2
  intro i j t hi hj
  obtain ⟨p1, p2, p3⟩ := recorded_intervals hopt hc hN k1 k2 i1 j1 i2 j2 (eff_total hN) hi hj
  exact ⟨p1, p2, fun hb hs => p3 hb hs.1 hs.2⟩

theorem grid_atoms {D : ℤ → Arr3 K} {c : K} {N : ℕ} {B : Base K} (h : OnIntervals D c N B) {sub : ℤ} {d : String} {b0 : Boot K}
    (hi : bootInit B.deltaT B.disp3d B.nO sub d = .ok b0) : (b0.displacements.map Arr3.n0).headD 0 = N := by
  obtain ⟨ds, dts, sel, d0, e1, -, -, e4, rfl⟩ := bootInit_inv hi
  obtain ⟨ti, t1, t2, t3, t4, t5⟩ := h
  dsimp only
  cases ds with
  | nil => cases e4
  | cons a l =>
    have ha : a ∈ B.disp3d := pyStride_mem e1 (by simp)
    rw [t3] at ha
    obtain ⟨τ, hτ, rfl⟩ := List.mem_map.mp ha
    simpa using t4 τ hτ

/-- **C125, what holds (MSCD).** -/
theorem C125_mscd_partial (E : Num K) (hfl : E.fl = id) (P : Params K) (hpos : P.stepSkip.val * P.timeStep.val ≠ 0) (hsm : P.sampling = "multi-origin")
    (S : Select K) (rd : Grid K → PyM (Base K)) (hr : ReadsGrid E P S rd) (γ γ' : Grid K) (sq : K → K) (o : Oracle K G) (U U' : UncParams K)
    (charge : Charge K) (hopt : U'.opt.block = U.opt.block) (hdim : U'.dimension = U.dimension) (g₁ g₂ g₁' g₂' : G) (Z Z' : Analyzer K)
    (h : conductivityAnalyzer sq o g₁ U charge (rd γ) = .ok (Z, g₂)) (h' : conductivityAnalyzer sq o g₁' U' charge (rd γ') = .ok (Z', g₂'))
    (h2 : ∀ a ∈ Z.disp3d, 2 ≤ a.n0) :
    SameAtTimes U.opt.block (U.sub = 1 ∧ U'.sub = 1) (Z.deltaT.getLastD 0) (Z'.deltaT.getLastD 0) Z.diff Z'.diff := by
  obtain ⟨B, hB, rfl, m⟩ := conductivity_inv h
  obtain ⟨B', hB', rfl, m'⟩ := conductivity_inv h'
  obtain ⟨b0, q, i1, -, i2, -⟩ := mscdBootstrap_inv m
  obtain ⟨b0', q', j1, -, j2, -⟩ := mscdBootstrap_inv m'
  rw [hdim] at j1
  obtain ⟨c, hc, D, N, hN, k1, k2⟩ := reads_intervals hfl hpos hsm hr hB hB' (disp_ne_nil i1) h2
  rw [grid_atoms k1 i1] at i2
  rw [grid_atoms k2 j1] at j2
  intro i j t hi hj
  obtain ⟨p1, p2, p3⟩ := recorded_intervals hopt hc hN k1 k2 i1 j1 i2 j2 (eff_total hN) hi hj
  exact ⟨p1, p2, fun hb hs => p3 hb hs.1 hs.2⟩

/-! ## Examples -/

/-- All intervals of the examples. -/
def exAllGrid : Grid ℚ := ⟨none, none, 100, "linear", 8⟩

/-- Intervals of one to three frames. -/
def exShortGrid : Grid ℚ := ⟨none, some 18, 100, "linear", 8⟩

/-- The Li and Na atoms of `exMixed` on the intervals `γ`. -/
def exGridRun (γ : Grid ℚ) : PyM (Analyzer ℚ × Unit) :=
  diffusionAnalyzer id (exOracle ℚ) () exUnc (fromAse exNum (onGrid exParams γ) (withSpecies exMixedSelect ["Li", "Na"]) 1 none (.one exMixed))

/-- **C125 is violated.** Leaving out the intervals above 18 makes the variance of the MSD at the time 6 larger by 5 / 3. -/
theorem C125_violated : ∃ Z Z', exGridRun exAllGrid = .ok (Z, ()) ∧ exGridRun exShortGrid = .ok (Z', ()) ∧
    Z.diff.dt[0]? = some 6 ∧ Z'.diff.dt[0]? = some 6 ∧ Z.diff.n[0]? = some (73 / 250) ∧ Z'.diff.n[0]? = some (73 / 250) ∧
    Z.diff.v[0]? = some (some (17847 / 2375000)) ∧ Z'.diff.v[0]? = some (some (17847 / 2375000 * (5 / 3))) := by
  obtain ⟨⟨Z, u⟩, h⟩ := ok_of_isSome (x := exGridRun exAllGrid) (by decide +kernel)
  obtain ⟨⟨Z', u'⟩, h'⟩ := ok_of_isSome (x := exGridRun exShortGrid) (by decide +kernel)
  have k : (exGridRun exAllGrid).toOption.map (fun z => (z.1.diff.dt[0]?, z.1.diff.n[0]?, z.1.diff.v[0]?)) =
    some (some 6, some (73 / 250), some (some (17847 / 2375000))) := by decide +kernel
  have k' : (exGridRun exShortGrid).toOption.map (fun z => (z.1.diff.dt[0]?, z.1.diff.n[0]?, z.1.diff.v[0]?)) =
    some (some 6, some (73 / 250), some (some (17847 / 2375000 * (5 / 3)))) := by decide +kernel
  rw [h] at k
  rw [h'] at k'
  simp only [Except.toOption, Option.map_some, Option.some.injEq, Prod.mk.injEq] at k k'
  exact ⟨Z, Z', h, h', k.1, k'.1, k.2.1, k'.2.1, k.2.2, k'.2.2⟩

/-- `C125_msd_partial` for these two analyses: the second with every second interval. -/
example : ∃ Z Z', exGridRun exAllGrid = .ok (Z, ()) ∧
    diffusionAnalyzer id (exOracle ℚ) () { exUnc with sub := 2 } (fromAse exNum (onGrid exParams exShortGrid) (withSpecies exMixedSelect ["Li", "Na"]) 1 none
      (.one exMixed)) = .ok (Z', ()) ∧
    SameAtTimes false (exUnc.sub = 1 ∧ (2 : ℤ) = 1) (Z.deltaT.getLastD 0) (Z'.deltaT.getLastD 0) Z.diff Z'.diff ∧
    Z.diff.dt[2]? = some 18 ∧ Z'.diff.dt[2]? = some 18 := by
  obtain ⟨⟨Z, u⟩, h⟩ := ok_of_isSome (x := exGridRun exAllGrid) (by decide +kernel)
  obtain ⟨⟨Z', u'⟩, h'⟩ := ok_of_isSome (x := diffusionAnalyzer id (exOracle ℚ) () { exUnc with sub := 2 }
    (fromAse exNum (onGrid exParams exShortGrid) (withSpecies exMixedSelect ["Li", "Na"]) 1 none (.one exMixed))) (by decide +kernel)
  have k : (exGridRun exAllGrid).toOption.map (fun z => (z.1.diff.dt[2]?, z.1.disp3d.all fun a => decide (2 ≤ a.n0))) = some (some 18, true) := by
    decide +kernel
  have k' : (diffusionAnalyzer id (exOracle ℚ) () { exUnc with sub := 2 } (fromAse exNum (onGrid exParams exShortGrid) (withSpecies exMixedSelect ["Li", "Na"])
    1 none (.one exMixed))).toOption.map (fun z => z.1.diff.dt[2]?) = some (some 18) := by decide +kernel
  rw [h] at k
  rw [h'] at k'
  simp only [Except.toOption, Option.map_some, Option.some.injEq, Prod.mk.injEq] at k k'
  exact ⟨Z, Z', h, h', C125_msd_partial exNum rfl exParams (by decide +kernel) rfl _ _ (.ase 1 exMixed) exAllGrid exShortGrid id (exOracle ℚ) exUnc
    { exUnc with sub := 2 } rfl rfl () () () () Z Z' h h' (by simpa using k.2), k.1, k'⟩

/-- `C125_mstd_partial` and `C125_mscd_partial`: both analyses have entries, here for the times 6 and 12. -/
example : ∃ Z Z', jumpAnalyzer id (exOracle ℚ) () exUnc (fromAse exNum (onGrid exParams exAllGrid) (withSpecies exMixedSelect ["Li", "Na"]) 1 none
      (.one exMixed)) = .ok (Z, ()) ∧
    jumpAnalyzer id (exOracle ℚ) () exUnc (fromAse exNum (onGrid exParams exShortGrid) (withSpecies exMixedSelect ["Li", "Na"]) 1 none
      (.one exMixed)) = .ok (Z', ()) ∧
    SameAtTimes false (exUnc.sub = 1 ∧ exUnc.sub = 1) (Z.deltaT.getLastD 0) (Z'.deltaT.getLastD 0) Z.diff Z'.diff ∧
    Z.diff.dt = [6, 12] ∧ Z'.diff.dt = [6, 6] := by
  obtain ⟨⟨Z, u⟩, h⟩ := ok_of_isSome (x := jumpAnalyzer id (exOracle ℚ) () exUnc (fromAse exNum (onGrid exParams exAllGrid)
    (withSpecies exMixedSelect ["Li", "Na"]) 1 none (.one exMixed))) (by decide +kernel)
  obtain ⟨⟨Z', u'⟩, h'⟩ := ok_of_isSome (x := jumpAnalyzer id (exOracle ℚ) () exUnc (fromAse exNum (onGrid exParams exShortGrid)
    (withSpecies exMixedSelect ["Li", "Na"]) 1 none (.one exMixed))) (by decide +kernel)
  have k : (jumpAnalyzer id (exOracle ℚ) () exUnc (fromAse exNum (onGrid exParams exAllGrid) (withSpecies exMixedSelect ["Li", "Na"]) 1 none
      (.one exMixed))).toOption.map (fun z => (z.1.diff.dt, z.1.disp3d.all fun a => decide (2 ≤ a.n0))) = some ([6, 12], true) := by decide +kernel
  have k' : (jumpAnalyzer id (exOracle ℚ) () exUnc (fromAse exNum (onGrid exParams exShortGrid) (withSpecies exMixedSelect ["Li", "Na"]) 1 none
      (.one exMixed))).toOption.map (fun z => z.1.diff.dt) = some [6, 6] := by decide +kernel
  rw [h] at k
  rw [h'] at k'
  simp only [Except.toOption, Option.map_some, Option.some.injEq, Prod.mk.injEq] at k k'
  exact ⟨Z, Z', h, h', C125_mstd_partial exNum rfl exParams (by decide +kernel) rfl _ _ (.ase 1 exMixed) exAllGrid exShortGrid id (exOracle ℚ) exUnc
    exUnc rfl rfl () () () () Z Z' h h' (by simpa using k.2), k.1, k'⟩

end Kinisi
