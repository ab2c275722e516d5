import Verif.Props.Increments
import Verif.Props.Paths
import Verif.Props.PooledOne

/-!
# C134 for any number of atoms
-/

set_option linter.unusedSectionVars false
set_option linter.unusedVariables false

namespace Kinisi
open Spec
variable {K : Type} [Field K] [LinearOrder K] [IsStrictOrderedRing K] [FloorRing K] {G : Type}

theorem filterMap_id_prefix {α : Type} : ∀ {l : List (Option α)}, (∀ (i j : ℕ) (x : Option α) (y : α), i < j → l[i]? = some x → l[j]? = some (some y) → ∃ z, x = some z) →
    ∀ {i : ℕ} {y : α}, (l.filterMap id)[i]? = some y → l[i]? = some (some y) := by
  intro l
  induction l with
  | nil => intro _ i y h; simp at h
  | cons x l ih =>
    intro h i y hy
    have hl : ∀ (i j : ℕ) (x : Option α) (y : α), i < j → l[i]? = some x → l[j]? = some (some y) → ∃ z, x = some z := fun i j u v hij h1 h2 =>
      h (i + 1) (j + 1) u v (by omega) (by simpa using h1) (by simpa using h2)
    cases x with
    | none =>
      exfalso
      rw [List.filterMap_cons] at hy
      obtain ⟨w, hw, hw'⟩ := List.mem_filterMap.mp (List.mem_of_getElem? hy)
      obtain ⟨j, hj⟩ := List.mem_iff_getElem?.mp hw
      simp only [id] at hw'
      subst hw'
      obtain ⟨z, hz⟩ := h 0 (j + 1) none y (by omega) (by simp) (by simpa using hj)
      cases hz
    | some z =>
      rw [List.filterMap_cons] at hy
      cases i with
      | zero => simpa using hy
      | succ i => simpa using ih hl (by simpa using hy)

/-- Ascending intervals: the ones that are kept come first, so that counts and times stay together. -/
theorem parserInit_const {E : Num K} (hfl : E.fl = id) {P : Params K} (hsm : P.sampling = "multi-origin") {w : Bool} {disp : Arr3 K} {sel : Selection} {r : Parsed K}
    (h : parserInit E P w disp sel = .ok r) (hc : 0 < P.stepSkip.val * P.timeStep.val) (hpos : ∀ t ∈ r.deltaT, 0 < t) (hasc : r.deltaT.Pairwise (· ≤ ·)) :
    (∀ n ∈ r.nO, 0 < n) ∧ r.nO.length = r.disp3d.length ∧ ∃ κ : K, ∀ (k : ℕ) (t n : K), r.deltaT[k]? = some t → r.nO[k]? = some n → n * t = κ := by
  obtain ⟨dc, ti, xs, a1, a2, a3, a4, a5, a6⟩ := parserInit_mapM h
  set c := P.stepSkip.val * P.timeStep.val with hcd
  have hdt : r.deltaT = ti.map fun τ : ℤ => (τ : K) * c := by
    rw [a4]
    refine List.map_congr_left fun τ _ => ?_
    rw [hfl]
    unfold deltaTOf
    rw [PyNum.val_mul_id, PyNum.val_mul_id]
    have hv : (PyNum.int τ : PyNum K).val = (τ : K) := rfl
    rw [hcd]
    rw [hv]
    ring
  have h1 : ∀ τ ∈ ti, 1 ≤ τ := by
    intro τ hτ
    have := hpos ((τ : K) * c) (by rw [hdt]; exact List.mem_map.2 ⟨τ, hτ, rfl⟩)
    have h0 : (0 : K) < (τ : K) := pos_of_mul_pos_left this hc.le
    have : (0 : ℤ) < τ := by exact_mod_cast h0
    omega
  have hle : ∀ (i j : ℕ) (σ τ : ℤ), i < j → ti[i]? = some σ → ti[j]? = some τ → σ ≤ τ := by
    intro i j σ τ hij e1 e2
    rw [hdt] at hasc
    obtain ⟨l1, e1⟩ := List.getElem?_eq_some_iff.mp e1
    obtain ⟨l2, e2⟩ := List.getElem?_eq_some_iff.mp e2
    have := List.pairwise_iff_getElem.1 hasc i j (by simpa using l1) (by simpa using l2) hij
    rw [List.getElem_map, List.getElem_map, e1, e2] at this
    exact_mod_cast le_of_mul_le_mul_right this hc
  rw [hfl, hsm] at a3
  obtain ⟨hl, hg⟩ := mapM_ok_inv a3
  have hat : ∀ (i : ℕ) (x : Option (Arr3 K × K)), xs[i]? = some x → ∃ τ, ti[i]? = some τ ∧
      oneInterval id sel.indices "multi-origin" (ti.getLastD 0) dc (τ, i) = .ok x := by
    intro i x hx
    have hi : i < ti.length := by
      have := (List.getElem?_eq_some_iff.mp hx).1
      rw [hl, List.length_zipIdx] at this
      exact this
    obtain ⟨y, hy, hyi⟩ := hg i (ti[i], i) (by rw [List.getElem?_zipIdx, List.getElem?_eq_getElem hi]; simp)
    obtain rfl : x = y := Option.some.inj (hx.symm.trans hyi)
    exact ⟨_, List.getElem?_eq_getElem hi, hy⟩
  obtain ⟨N, hN⟩ : ∃ N : ℕ, ∀ (i : ℕ) (x : Arr3 K × K) (τ : ℤ), ti[i]? = some τ → oneInterval id sel.indices "multi-origin" (ti.getLastD 0) dc (τ, i) = .ok (some x) →
      τ ≠ 0 ∧ 1 ≤ N ∧ x.2 = (((N : ℤ) * ti.getLastD 0 : ℤ) : K) / (τ : K) := by
    cases hr : sel.indices.mapM (npIdx dc.n0) with
    | error e =>
      refine ⟨0, fun i x τ _ hx => ?_⟩
      obtain ⟨rows, b1, -⟩ := oneInterval_moves hx
      rw [hr] at b1; cases b1
    | ok rows =>
      refine ⟨rows.length, fun i x τ _ hx => ?_⟩
      obtain ⟨rows', b1, b2, -, b4⟩ := oneInterval_moves hx
      rw [hr] at b1
      cases b1
      refine ⟨b2, ?_⟩
      rcases b4 with ⟨-, h⟩ | ⟨h1, h⟩ | ⟨h1, h⟩
      · cases h
      · rw [Option.some.inj h]; exact ⟨h1.ge, rfl⟩
      · rw [Option.some.inj h]; exact ⟨by omega, rfl⟩
  refine ⟨fun n hn => ?_, by rw [a5, a6, List.length_map, List.length_map], (((N : ℤ) * ti.getLastD 0 : ℤ) : K) * c, fun k t n e1 e2 => ?_⟩
  · rw [a6] at hn
    obtain ⟨x, hx, rfl⟩ := List.mem_map.1 hn
    obtain ⟨y, hy, rfl⟩ := List.mem_filterMap.1 hx
    obtain ⟨i, hi⟩ := List.mem_iff_getElem?.1 hy
    obtain ⟨τ, s1, s2⟩ := hat i _ hi
    obtain ⟨-, hN1, he⟩ := hN i x τ s1 s2
    have hτ := h1 τ (List.mem_of_getElem? s1)
    have hlast : 1 ≤ ti.getLastD 0 := by
      have hne : ti ≠ [] := by rintro rfl; simp at s1
      rw [List.getLastD_eq_getLast?, List.getLast?_eq_some_getLast hne]
      exact h1 _ (List.getLast_mem hne)
    rw [he]
    have p1 : (0 : K) < ((N : ℤ) * ti.getLastD 0 : ℤ) := by
      have : (0 : ℤ) < (N : ℤ) * ti.getLastD 0 := by positivity
      exact_mod_cast this
    have p2 : (0 : K) < (τ : K) := by exact_mod_cast (by omega : (0 : ℤ) < τ)
    exact div_pos p1 p2
  rw [hdt, List.getElem?_map] at e1
  obtain ⟨τ, hτ, rfl⟩ := Option.map_eq_some_iff.1 e1
  rw [a6, List.getElem?_map] at e2
  obtain ⟨x, hx, rfl⟩ := Option.map_eq_some_iff.1 e2
  have hx' := filterMap_id_prefix (l := xs) (fun i j u v hij h2 h3 => by
    obtain ⟨σ, s1, s2⟩ := hat i u h2
    obtain ⟨τ', t1, t2⟩ := hat j _ h3
    exact oneInterval_shorter (h1 σ (List.mem_of_getElem? s1)) (hle i j σ τ' hij s1 t1) t2 s2) hx
  obtain ⟨τ', t1, t2⟩ := hat k _ hx'
  obtain rfl : τ = τ' := Option.some.inj (hτ.symm.trans t1)
  obtain ⟨hz, -, he⟩ := hN k x τ t1 t2
  rw [he]
  have : ((τ : ℤ) : K) ≠ 0 := by exact_mod_cast hz
  field_simp

theorem read_const {E : Num K} (hfl : E.fl = id) {P : Params K} (hsm : P.sampling = "multi-origin") (hc : 0 < P.stepSkip.val * P.timeStep.val) {S : Select K} {fr : List (Frame K)} {uni : Universe K} {base : PyM (Base K)}
    {unit : K} (hb : ReadFrames E P S fr uni base unit) {B : Base K} (hB : base = .ok B) (hpos : ∀ t ∈ B.deltaT, 0 < t) (hasc : B.deltaT.Pairwise (· ≤ ·)) :
    (∀ n ∈ B.nO, 0 < n) ∧ B.nO.length = B.disp3d.length ∧ ∃ κ : K, ∀ (k : ℕ) (t n : K), B.deltaT[k]? = some t → B.nO[k]? = some n → n * t = κ := by
  have hk : 0 < (P.stepSkip.mul E.fl (.int 1)).val * P.timeStep.val := by
    rw [hfl, PyNum.val_mul_id]
    simpa [PyNum.val] using hc
  rcases hb with ⟨rfl, -⟩ | ⟨rfl, -⟩ | ⟨rfl, -⟩
  · simp only [fromAse, analyzerFrom, Traj.asOne, bind, Except.bind] at hB
    split at hB
    · cases hB
    rename_i z hz
    cases hB
    unfold aseParser at hz
    cases e : pyStride 1 fr with
    | error x => rw [e] at hz; cases hz
    | ok fs =>
    rw [e] at hz
    simp only [bind, Except.bind] at hz
    cases fs with
    | nil => cases hz
    | cons f0 rest =>
    obtain ⟨cs, sel, w, disp, r0, -, -, e3, rfl⟩ := buildParser_inv hz
    exact parserInit_const hfl hsm e3 hc hpos hasc
  · simp only [fromPymatgen, analyzerFrom, Traj.asOne, bind, Except.bind] at hB
    split at hB
    · cases hB
    rename_i z hz
    cases hB
    unfold pymatgenParser at hz
    cases e : pyStride 1 fr with
    | error x => rw [e] at hz; cases hz
    | ok fs =>
    rw [e] at hz
    simp only [bind, Except.bind] at hz
    cases fs with
    | nil => cases hz
    | cons f0 rest =>
    simp only [structureCoordsLatt] at hz
    split at hz
    · cases hz
    rename_i y hy
    split_ifs at hz
    cases hz
    obtain ⟨cs, sel, w, disp, r0, -, -, e3, rfl⟩ := buildParser_inv hy
    simp only [baseOf] at hpos hasc ⊢
    have hf : ∀ t : K, E.fl (t * E.fl (1 / 10 ^ 3)) = t * (1 / 10 ^ 3) := fun t => by rw [hfl]; rfl
    simp only [hf] at hpos hasc ⊢
    have h10 : (0 : K) < 1 / 10 ^ 3 := by positivity
    obtain ⟨hn, hl, κ, hκ⟩ := parserInit_const (P := { P with stepSkip := P.stepSkip.mul E.fl (.int 1) }) hfl hsm e3 hk
      (fun t ht => pos_of_mul_pos_left (hpos _ (List.mem_map.2 ⟨t, ht, rfl⟩)) h10.le)
      ((List.pairwise_map.1 hasc).imp fun h => le_of_mul_le_mul_right h h10)
    refine ⟨hn, hl, κ * (1 / 10 ^ 3), fun k t n e1 e2 => ?_⟩
    rw [List.getElem?_map] at e1
    obtain ⟨t', ht', rfl⟩ := Option.map_eq_some_iff.1 e1
    rw [← hκ k t' n ht' e2, mul_assoc]
  · simp only [fromUniverse, analyzerFrom, Traj.asOne, bind, Except.bind] at hB
    split at hB
    · cases hB
    rename_i z hz
    cases hB
    unfold mdaParser at hz
    dsimp only at hz
    replace hz := of_ite_error hz
    cases e : pyStride 1 uni.2 with
    | error x => rw [e] at hz; cases hz
    | ok fs =>
    rw [e] at hz
    simp only [bind, Except.bind] at hz
    cases e2 : fs.mapM (mdaFrame uni.1 1) with
    | error x => rw [e2] at hz; cases hz
    | ok gs =>
    rw [e2] at hz
    dsimp only at hz
    cases gs with
    | nil => cases hz
    | cons f0 rest =>
    obtain ⟨cs, sel, w, disp, r0, -, -, e3, rfl⟩ := buildParser_inv hz
    exact parserInit_const (P := { P with stepSkip := P.stepSkip.mul E.fl (.int 1) }) hfl hsm e3 hk hpos hasc

/-- **C134, any number of atoms.** One trajectory, all frames, times that are positive and ascend: also for a single atom, where the long
intervals are left out, the number of observations is inversely proportional to the time. -/
theorem C134_constant_atoms (E : Num K) (hfl : E.fl = id) (P : Params K) (hsm : P.sampling = "multi-origin") (hc : 0 < P.stepSkip.val * P.timeStep.val) (S : Select K) (fr : List (Frame K)) (uni : Universe K)
    (base : PyM (Base K)) (unit : K) (hb : ReadFrames E P S fr uni base unit) (sq : K → K) (o : Oracle K G) (U : UncParams K) (hsub : U.sub = 1) (charge : Charge K) (g₁ g₂ : G) (Z : Analyzer K)
    (h : diffusionAnalyzer sq o g₁ U base = .ok (Z, g₂) ∨ jumpAnalyzer sq o g₁ U base = .ok (Z, g₂) ∨ conductivityAnalyzer sq o g₁ U charge base = .ok (Z, g₂))
    (hpos : ∀ t ∈ Z.deltaT, 0 < t) (hasc : Z.deltaT.Pairwise (· ≤ ·)) :
    ∃ κ : K, ∀ (k : ℕ) (t N : K), Z.diff.dt[k]? = some t → Z.diff.nO[k]? = some N → N * t = κ := by
  rcases h with h | h | h
  · obtain ⟨B, hB, rfl, m⟩ := diffusion_inv h
    rw [hsub] at m
    obtain ⟨b0, q, i1, -, i2, -, b1, -, i3⟩ := msdBootstrap_inv m
    obtain ⟨-, -, κ, hκ⟩ := read_const hfl hsm hc hb hB hpos hasc
    exact ⟨κ, recorded_const i1 i2 i3 hκ⟩
  · obtain ⟨B, hB, rfl, m⟩ := jump_inv h
    rw [hsub] at m
    obtain ⟨b0, q, i1, -, i2, -, b1, -, i3⟩ := mstdBootstrap_inv m
    obtain ⟨-, -, κ, hκ⟩ := read_const hfl hsm hc hb hB hpos hasc
    exact ⟨κ, recorded_const i1 i2 i3 hκ⟩
  · obtain ⟨B, hB, rfl, m⟩ := conductivity_inv h
    rw [hsub] at m
    obtain ⟨b0, q, i1, -, i2, -, b1, -, i3⟩ := mscdBootstrap_inv m
    obtain ⟨-, -, κ, hκ⟩ := read_const hfl hsm hc hb hB hpos hasc
    exact ⟨κ, recorded_const i1 i2 i3 hκ⟩

/-- `C134_constant_atoms` for a trajectory whose path is known. -/
theorem path_constant {E : Num K} (hfl : E.fl = id) {P : Params K} (hsm : P.sampling = "multi-origin") (hc : 0 < P.stepSkip.val * P.timeStep.val) {S : Select K} {fr : List (Frame K)} {uni : Universe K}
    {base : PyM (Base K)} {unit : K} (hb : ReadFrames E P S fr uni base unit) {sq : K → K} {o : Oracle K G} {U : UncParams K} (hsub : U.sub = 1) {charge : Charge K} {g₁ g₂ : G} {Z : Analyzer K}
    (h : diffusionAnalyzer sq o g₁ U base = .ok (Z, g₂) ∨ jumpAnalyzer sq o g₁ U base = .ok (Z, g₂) ∨ conductivityAnalyzer sq o g₁ U charge base = .ok (Z, g₂)) {taus : List ℕ} (h1 : ∀ τ ∈ taus, 1 ≤ τ)
    (hasc : taus.Pairwise (· ≤ ·)) (hdt : Z.deltaT = taus.map fun τ : ℕ => (τ : K) * P.stepSkip.val * P.timeStep.val / unit) :
    ∃ κ : K, ∀ (k : ℕ) (t N : K), Z.diff.dt[k]? = some t → Z.diff.nO[k]? = some N → N * t = κ := by
  have hu : 0 < unit := by rcases hb with ⟨-, rfl⟩ | ⟨-, rfl⟩ | ⟨-, rfl⟩ <;> norm_num
  have hδ : 0 < P.stepSkip.val * P.timeStep.val / unit := div_pos hc hu
  have e : ∀ τ : ℕ, (τ : K) * P.stepSkip.val * P.timeStep.val / unit = τ * (P.stepSkip.val * P.timeStep.val / unit) := fun τ => by ring
  simp only [e] at hdt
  refine C134_constant_atoms E hfl P hsm hc S fr uni base unit hb sq o U hsub charge g₁ g₂ Z h ?_ ?_
  · intro t ht
    rw [hdt] at ht
    obtain ⟨τ, hτ, rfl⟩ := List.mem_map.1 ht
    have : (0 : K) < τ := by exact_mod_cast h1 τ hτ
    positivity
  · rw [hdt]
    exact hasc.map _ fun σ τ h => mul_le_mul_of_nonneg_right (by exact_mod_cast h) hδ.le

theorem cell_constant {E : Num K} {P : Params K} {S : Select K} {sy : List String} {atoms fw : List ℕ} (hS : Picks S sy atoms fw) (hP : DefaultGrid E P) {F : ℕ} (hF : 2 ≤ F) {C : ℕ → M3 K} {V : ℕ → K}
    {s x : ℕ → ℕ → V3 K} (hs : StoredIn F sy.length C s x) {base : PyM (Base K)} {unit : K} (hb : ReadFrames E P S (cellFrames F sy C V s) (cellUniverse F sy C V s) base unit) {sq : K → K}
    {o : Oracle K G} {U : UncParams K} (hsub : U.sub = 1) {charge : Charge K} {g₁ g₂ : G} {Z : Analyzer K}
    (h : diffusionAnalyzer sq o g₁ U base = .ok (Z, g₂) ∨ jumpAnalyzer sq o g₁ U base = .ok (Z, g₂) ∨ conductivityAnalyzer sq o g₁ U charge base = .ok (Z, g₂)) :
    ∃ κ : K, ∀ (k : ℕ) (t N : K), Z.diff.dt[k]? = some t → Z.diff.nO[k]? = some N → N * t = κ := by
  obtain ⟨B, hB, hZ⟩ : ∃ B, base = .ok B ∧ Z.toBase = B := by
    rcases h with h | h | h
    · obtain ⟨B, a, b, -⟩ := diffusion_inv h; exact ⟨B, a, b⟩
    · obtain ⟨B, a, b, -⟩ := jump_inv h; exact ⟨B, a, b⟩
    · obtain ⟨B, a, b, -⟩ := conductivity_inv h; exact ⟨B, a, b⟩
  obtain ⟨f0, rest, hw, hlen, hv, hf⟩ := cell_follows (E := E) (V := V) hS hF hs
  have hb' := hb
  rw [hw] at hb'
  obtain ⟨taus, ht⟩ := frames_base hP hF hlen hf (fun fr h => (cellUniverse_frames h).trans hw) hb' hB
  exact path_constant hP.1 hP.2.2.2.2.2 hP.2.1 hb hsub h (fun τ hτ => (ht.range τ hτ).1) (ht.sorted.imp fun h => h.le) (by rw [hZ]; exact ht.deltaT)

/-! ## Example -/

/-- One mobile atom in five frames: the intervals of three, four and five frames have less than two observations and are left out; the numbers of observations of the others, 5 and 5/2, times the interval are 30. -/
example : ∃ Z, diffusionAnalyzer id (exOracle ℚ) () exUnc (fromAse exNum exParams exSelectOne 1 none (.one exTraj)) = .ok (Z, ()) ∧ Z.deltaT = [6, 12, 18, 24, 30] ∧ Z.diff.dt = [6, 12] ∧
    Z.diff.nO = [5, 5 / 2] ∧ ∃ κ : ℚ, ∀ (k : ℕ) (t N : ℚ), Z.diff.dt[k]? = some t → Z.diff.nO[k]? = some N → N * t = κ := by
  obtain ⟨⟨Z, u⟩, h⟩ := ok_of_isSome (x := diffusionAnalyzer id (exOracle ℚ) () exUnc (fromAse exNum exParams exSelectOne 1 none (.one exTraj))) (by decide +kernel)
  have k : (diffusionAnalyzer id (exOracle ℚ) () exUnc (fromAse exNum exParams exSelectOne 1 none (.one exTraj))).toOption.map (fun z => (z.1.deltaT, z.1.diff.dt, z.1.diff.nO)) =
      some ([6, 12, 18, 24, 30], [6, 12], [5, 5 / 2]) := by decide +kernel
  rw [h] at k
  simp only [Except.toOption, Option.map_some, Option.some.injEq, Prod.mk.injEq] at k
  refine ⟨Z, h, k.1, k.2.1, k.2.2, C134_constant_atoms exNum rfl exParams rfl (by decide +kernel) exSelectOne exTraj ([], []) _ 1 (.inl ⟨rfl, rfl⟩) id (exOracle ℚ) exUnc rfl (.scalar 1) () u Z (.inl h) ?_ ?_⟩
  · rw [k.1]; decide +kernel
  · rw [k.1]; decide +kernel

end Kinisi
