import Verif.Props.Analyzer
import Verif.Props.GetDisps
import Verif.Props.TimesFl
import Verif.Lemmas.Float

/-!
# C76 for every linear grid, every input format and every rounding

Pooled trajectories have the same number of frames, hence the same intervals and times.
-/

set_option linter.unusedSectionVars false
set_option linter.unusedVariables false

namespace Kinisi
open Spec

variable {K : Type} [Field K] [LinearOrder K] [IsStrictOrderedRing K] [FloorRing K]

theorem filterMap_id_getElem? {α : Type} : ∀ {l : List (Option α)}, (∀ x ∈ l, ∃ y, x = some y) → ∀ {i : ℕ} {y : α},
    l[i]? = some (some y) → (l.filterMap id)[i]? = some y := by
  intro l
  induction l with
  | nil => intro _ i y h; simp at h
  | cons x l ih =>
    intro h i y hy
    obtain ⟨z, rfl⟩ := h x (by simp)
    rw [List.filterMap_cons]
    cases i with
    | zero => simpa using hy
    | succ i => simpa using ih (fun w hw => h w (by simp [hw])) (by simpa using hy)

theorem oneInterval_shape {fl : K → K} {idx : List ℤ} {last : ℤ} {dc : Arr3 K} {τ : ℤ} {i : ℕ} {x : Arr3 K × K} (h1 : 1 ≤ τ)
    (h : oneInterval fl idx "multi-origin" last dc (τ, i) = .ok (some x)) : (x.1.n1 : ℤ) = dc.n1 + 1 - τ := by
  obtain ⟨-, hle⟩ := oneInterval_multi_inv h
  obtain ⟨t, rfl⟩ : ∃ t : ℕ, τ = t := ⟨τ.toNat, by omega⟩
  unfold oneInterval at h
  dsimp only at h
  cases hr : idx.mapM (npIdx dc.n0) with
  | error e => rw [hr] at h; cases h
  | ok rows =>
  rw [hr] at h
  simp only [bind, Except.bind] at h
  rw [if_neg (by decide), if_pos trivial] at h
  rw [multiOrigin_ok dc rows (by omega) (by omega)] at h
  dsimp only at h
  rw [if_neg (by omega)] at h
  split_ifs at h
  · cases h
  obtain rfl := Option.some.inj (Except.ok.inj h)
  have := (windowArr_isWindows dc rows (τ := t) (by omega) (by omega)).2.1
  dsimp only
  omega

/-- The window arrays of a constructed parser, for several origins and at least two selected atoms. -/
theorem parserInit_windows {E : Num K} {P : Params K} {w : Bool} {disp : Arr3 K} {sel : Selection} {r : Parsed K}
    (h : parserInit E P w disp sel = .ok r) (hs : P.sampling = "multi-origin") (hi : 2 ≤ r.indices.length) {i : ℕ} {τ : ℤ}
    (hτ : r.intervals[i]? = some τ) (h1 : 1 ≤ τ) : ∃ a, r.disp3d[i]? = some a ∧ (a.n1 : ℤ) = r.dc.n1 + 1 - τ := by
  unfold parserInit at h
  cases h4 : correctDriftSeq sel.drift disp with
  | error e => rw [h4] at h; cases h
  | ok dc =>
  rw [h4] at h
  simp only [bind, Except.bind] at h
  cases h5 : initTimeIntervals E.fl E.geo dc.n1 P.timeStep P.stepSkip P.minDt P.maxDt P.nSteps P.spacing with
  | error e => rw [h5] at h; cases h
  | ok ti =>
  rw [h5] at h
  simp only at h
  cases h6 : getDisps E.fl (E.fl (1 / 10 ^ 9)) P.itemsize P.timeStep P.stepSkip sel.indices P.sampling P.memoryLimit ti dc with
  | error e => rw [h6] at h; cases h
  | ok o =>
  rw [h6] at h
  obtain rfl := Except.ok.inj h
  dsimp only at hi hτ ⊢
  unfold getDisps at h6
  cases hc : checkRows ti sel.indices dc.n0 with
  | error e => rw [hc] at h6; cases h6
  | ok rows =>
  rw [hc] at h6
  simp only [bind, Except.bind] at h6
  split at h6
  · cases h6
  cases hm : ti.zipIdx.mapM (oneInterval E.fl sel.indices P.sampling (ti.getLastD 0) dc) with
  | error e => rw [hm] at h6; cases h6
  | ok l =>
  rw [hm] at h6
  obtain rfl := Except.ok.inj h6
  obtain ⟨hl, hg⟩ := mapM_ok_inv hm
  rw [hs] at hg
  have hall : ∀ x ∈ l, ∃ y, x = some y := by
    intro x hx
    obtain ⟨j, hxj⟩ := List.mem_iff_getElem?.mp hx
    have hjl : j < ti.zipIdx.length := by rw [← hl]; exact (List.getElem?_eq_some_iff.mp hxj).1
    obtain ⟨y, hy, hyj⟩ := hg j _ (List.getElem?_eq_getElem hjl)
    obtain rfl : x = y := Option.some.inj (hxj.symm.trans hyj)
    exact oneInterval_kept hi hy
  obtain ⟨y, hy, hyi⟩ := hg i (τ, i) (by rw [List.getElem?_zipIdx, hτ]; simp)
  obtain ⟨x, rfl⟩ := hall y (List.mem_of_getElem? hyi)
  refine ⟨x.1, ?_, oneInterval_shape h1 hy⟩
  dsimp only
  rw [List.getElem?_map, filterMap_id_getElem? hall hyi]
  rfl

theorem PyNum.mul_nonneg_fl {fl : K → K} {N : ℕ} (R : Rounding fl N) {a b : PyNum K} (ha : 0 ≤ a.val) (hb : 0 ≤ b.val) :
    0 ≤ (a.mul fl b).val := by
  have h0 : fl 0 = 0 := by simpa using R.int_exact 0 (by simp)
  have hf : ∀ x : K, 0 ≤ x → 0 ≤ fl x := fun x hx => by rw [← h0]; exact R.mono hx
  cases a with
  | int x =>
    cases b with
    | int y =>
      simp only [PyNum.mul, PyNum.val, Int.cast_mul] at ha hb ⊢
      exact mul_nonneg ha hb
    | float y => exact hf _ (mul_nonneg ha hb)
  | float x =>
    cases b with
    | int y => exact hf _ (mul_nonneg ha hb)
    | float y => exact hf _ (mul_nonneg ha hb)

/-- A non-negative number of frames for non-negative times. -/
theorem stepsOf_nonneg {fl : K → K} {N : ℕ} (R : Rounding fl N) {ts ss : PyNum K} (hts : 0 ≤ ts.val) (hss : 0 ≤ ss.val) {x : K}
    (hx : 0 ≤ x) {m : ℤ} (h : stepsOf fl ts ss x = .ok m) : 0 ≤ m := by
  have h0 : fl 0 = 0 := by simpa using R.int_exact 0 (by simp)
  have hd : 0 ≤ (ss.mul fl ts).val := PyNum.mul_nonneg_fl R hss hts
  unfold stepsOf at h
  dsimp only at h
  split_ifs at h
  obtain rfl := Except.ok.inj h
  have : 0 ≤ fl (x / (ss.mul fl ts).val) := by rw [← h0]; exact R.mono (div_nonneg hx hd)
  rw [pyInt_nonneg this]
  exact Int.floor_nonneg.2 this

/-- Linear spacing: there is no interval at all (`n_steps = 0`), or the first one is a number of frames that does not depend on the
length of the trajectory. -/
theorem linear_first {fl : K → K} {N : ℕ} (R : Rounding fl N) {geo : ℤ → ℤ → ℕ → ℕ → K} {T : ℕ} (hT : 2 ≤ T) (hTN : T ≤ N)
    {ts ss : PyNum K} (hts : 0 ≤ ts.val) (hss : 0 ≤ ss.val) {minDt maxDt : Option K} (hmin : ∀ x, minDt = some x → 0 ≤ x)
    {nSteps : ℤ} {ti : List ℤ} (h : initTimeIntervals fl geo T ts ss minDt maxDt nSteps "linear" = .ok ti) :
    ∃ m, stepsOf fl ts ss (minDtOf fl ts ss minDt) = .ok m ∧ 0 ≤ nSteps ∧
      (nSteps = 0 → ti = []) ∧ (0 < nSteps → ti[0]? = some (max 1 m)) ∧ max 1 m < T := by
  unfold initTimeIntervals at h
  dsimp only at h
  cases hm : stepsOf fl ts ss (minDtOf fl ts ss minDt) with
  | error e => rw [hm] at h; cases h
  | ok m =>
  rw [hm] at h
  simp only [bind, Except.bind] at h
  have hm0 : 0 ≤ m := by
    refine stepsOf_nonneg R hts hss ?_ hm
    cases minDt with
    | none => exact PyNum.mul_nonneg_fl R hss hts
    | some x => exact hmin x rfl
  by_cases hmT : m ≥ (T : ℤ)
  · rw [if_pos hmT] at h; cases h
  rw [if_neg hmT] at h
  set n : ℤ := if nSteps > (T : ℤ) - m + 1 then (T : ℤ) - m + 1 else nSteps with hn
  unfold getTimeIntervals at h
  rw [hm] at h
  simp only [bind, Except.bind] at h
  cases hM : stepsOf fl ts ss (maxDtOf fl T ts ss maxDt) with
  | error e => rw [hM] at h; cases h
  | ok M =>
  rw [hM] at h
  simp only [if_true] at h
  have hmax : (if m = 0 then 1 else m) = max 1 m := by split_ifs <;> omega
  rw [hmax] at h
  have hn0 : 0 ≤ n := by
    by_contra hc
    unfold linspaceInt at h
    rw [if_pos (by omega)] at h
    cases h
  obtain ⟨k, hk⟩ : ∃ k : ℕ, n = k := ⟨n.toNat, by omega⟩
  rw [hk, linspaceInt_nat] at h
  obtain rfl := Except.ok.inj h
  have hns : nSteps = 0 ↔ k = 0 := by rw [hn] at hk; split_ifs at hk <;> omega
  have hns' : 0 ≤ nSteps := by rw [hn] at hk; split_ifs at hk <;> omega
  refine ⟨m, rfl, hns', ?_, ?_, by omega⟩
  · intro h0
    rw [hns.1 h0]
    rfl
  · intro h0
    have hk0 : 0 < k := by omega
    rw [List.getElem?_map, List.getElem?_range hk0]
    simp only [Option.map_some, Option.some.injEq]
    unfold linEntry
    by_cases h1 : k = 1
    · rw [if_neg (by omega), if_pos h1]
    · rw [if_neg (by omega), if_neg h1]
      have hz : fl 0 = 0 := by simpa using R.int_exact 0 (by simp)
      simp only [Nat.cast_zero, zero_mul, hz, zero_add]
      rw [R.int_exact _ (by rw [abs_of_nonneg (by omega)]; omega), Int.floor_intCast]

/-- The first interval is a number of frames that does not depend on the length `T` of the trajectory. -/
def SameFirst (E : Num K) (P : Params K) (N : ℕ) : Prop :=
  ∃ a : ℤ, ∀ (T : ℕ) (ti : List ℤ), 2 ≤ T → T ≤ N →
    initTimeIntervals E.fl E.geo T P.timeStep P.stepSkip P.minDt P.maxDt P.nSteps P.spacing = .ok ti →
    (P.nSteps = 0 → ti = []) ∧ (P.nSteps ≠ 0 → ti[0]? = some a ∧ 1 ≤ a ∧ a < T)

theorem sameFirst_linear {E : Num K} {N : ℕ} (R : Rounding E.fl N) {P : Params K}
    (hlin : P.spacing = "linear") (hts : 0 ≤ P.timeStep.val) (hss : 0 ≤ P.stepSkip.val) (hmin : ∀ x, P.minDt = some x → 0 ≤ x) :
    SameFirst E P N := by
  cases hm : stepsOf E.fl P.timeStep P.stepSkip (minDtOf E.fl P.timeStep P.stepSkip P.minDt) with
  | error e =>
    refine ⟨0, fun T ti hT hTN h => ?_⟩
    rw [hlin] at h
    obtain ⟨m, hm', -⟩ := linear_first R hT hTN hts hss hmin h
    rw [hm] at hm'; cases hm'
  | ok m =>
    refine ⟨max 1 m, fun T ti hT hTN h => ?_⟩
    rw [hlin] at h
    obtain ⟨m', hm', hn, hz, hp, hlt⟩ := linear_first R hT hTN hts hss hmin h
    obtain rfl : m = m' := Except.ok.inj (hm.symm.trans hm')
    exact ⟨hz, fun h0 => ⟨hp (lt_of_le_of_ne hn (Ne.symm h0)), le_max_left _ _, hlt⟩⟩

theorem sameFirst_logarithmic {E : Num K} (hE : E.fl = id) {P : Params K} (hlog : P.spacing = "logarithmic")
    (hgeo : ∀ (a b : ℤ) (n i : ℕ), 1 ≤ a → a ≤ b → i < n → (a : K) ≤ E.geo a b n i ∧ E.geo a b n i ≤ b)
    (hpos : 0 < P.stepSkip.val * P.timeStep.val) (hmin : ∀ x, P.minDt = some x → 0 ≤ x)
    (hmax : ∀ y, P.maxDt = some y → minDtOf id P.timeStep P.stepSkip P.minDt ≤ y ∧ P.stepSkip.val * P.timeStep.val ≤ y) (N : ℕ) :
    SameFirst E P N := by
  set d := P.stepSkip.val * P.timeStep.val with hd
  set x := minDtOf id P.timeStep P.stepSkip P.minDt with hx
  have hx0 : 0 ≤ x := by
    rw [hx]
    cases h : P.minDt with
    | none => simp only [minDtOf, PyNum.val_mul_id]; exact hpos.le
    | some z => exact hmin z h
  have hm0 : 0 ≤ ⌊x / d⌋ := Int.floor_nonneg.2 (div_nonneg hx0 hpos.le)
  refine ⟨max 1 ⌊x / d⌋, fun T ti hT hTN h => ?_⟩
  unfold initTimeIntervals at h
  dsimp only at h
  rw [hE, ← hx, stepsOf_id hpos hx0, ← hd] at h
  simp only [bind, Except.bind] at h
  by_cases hmT : (T : ℤ) ≤ ⌊x / d⌋
  · rw [if_pos hmT] at h; cases h
  rw [if_neg hmT, hlog] at h
  set y := maxDtOf id T P.timeStep P.stepSkip P.maxDt with hy
  have hy' : 0 ≤ y ∧ max 1 ⌊x / d⌋ ≤ ⌊y / d⌋ := by
    rw [hy]
    cases hc : P.maxDt with
    | none =>
      have e : maxDtOf id T P.timeStep P.stepSkip (none : Option K) = (T : K) * d := by
        simp only [maxDtOf, PyNum.val_mul_id]
        simp [PyNum.val, hd]
      rw [e, mul_div_assoc, div_self hpos.ne', mul_one, Int.floor_natCast]
      exact ⟨mul_nonneg (Nat.cast_nonneg _) hpos.le, by omega⟩
    | some z =>
      obtain ⟨h1, h2⟩ := hmax z hc
      simp only [maxDtOf]
      refine ⟨hpos.le.trans h2, max_le ?_ (Int.floor_mono (by gcongr))⟩
      rw [Int.le_floor, Int.cast_one, le_div_iff₀ hpos, one_mul]
      exact h2
  set n : ℤ := if P.nSteps > (T : ℤ) - ⌊x / d⌋ + 1 then (T : ℤ) - ⌊x / d⌋ + 1 else P.nSteps with hn
  have ha : max 1 ⌊x / d⌋ = if ⌊x / d⌋ = 0 then 1 else ⌊x / d⌋ := by split_ifs <;> omega
  rcases lt_trichotomy n 0 with hneg | hzero | hpn
  · exfalso
    unfold getTimeIntervals at h
    rw [stepsOf_id hpos hx0, stepsOf_id hpos hy'.1, ← hd] at h
    simp only [bind, Except.bind] at h
    rw [if_neg (show ¬ "logarithmic" = "linear" by decide), if_pos trivial, ← ha, geomspaceInt, if_neg (by omega), if_pos hneg] at h
    cases h
  · have hN0 : P.nSteps = 0 := by rw [hn] at hzero; split_ifs at hzero <;> omega
    refine ⟨fun _ => ?_, fun h0 => absurd hN0 h0⟩
    rw [hzero] at h
    unfold getTimeIntervals at h
    rw [stepsOf_id hpos hx0, stepsOf_id hpos hy'.1, ← hd] at h
    simp only [bind, Except.bind] at h
    rw [if_neg (show ¬ "logarithmic" = "linear" by decide), if_pos trivial, ← ha, geomspaceInt, if_neg (by omega), if_neg (by omega)] at h
    obtain rfl := Except.ok.inj h
    simp [npUnique]
  · obtain ⟨k, hk⟩ : ∃ k : ℕ, n = k := ⟨n.toNat, by omega⟩
    obtain ⟨l, hl, hsort, -, hr, hmem, -⟩ := C10_logarithmic_intervals id E.geo P.timeStep P.stepSkip x y ⌊x / d⌋ ⌊y / d⌋ _
      (stepsOf_id hpos hx0) (stepsOf_id hpos hy'.1) ha (le_max_left _ _) hy'.2 k (by omega)
      (fun i hi => hgeo _ _ _ _ (le_max_left _ _) hy'.2 hi)
    rw [hk] at h
    obtain rfl : l = ti := Except.ok.inj (hl.symm.trans h)
    refine ⟨fun h0 => ?_, fun _ => ⟨?_, le_max_left _ _, by omega⟩⟩
    · exfalso
      rw [hn] at hpn; split_ifs at hpn <;> omega
    · obtain ⟨i, hi⟩ := List.mem_iff_getElem?.1 hmem
      cases i with
      | zero => exact hi
      | succ i =>
        exfalso
        have hlt : i + 1 < l.length := (List.getElem?_eq_some_iff.1 hi).1
        have h1 := List.pairwise_iff_getElem.1 hsort 0 (i + 1) (by omega) hlt (by omega)
        have h2 := (hr _ (List.getElem_mem (by omega : 0 < l.length))).1
        have h3 : l[i + 1] = max 1 ⌊x / d⌋ := (List.getElem?_eq_some_iff.1 hi).2
        omega

/-- Two constructed parsers whose first arrays have the same number of observations (or the second one a single one). -/
theorem parsers_equal_grids {E : Num K} {N : ℕ} {P : Params K} (hs : P.sampling = "multi-origin") (hf : SameFirst E P N)
    {w w' : Bool} {disp disp' : Arr3 K} {sel sel' : Selection} {r r' : Parsed K}
    (h : parserInit E P w disp sel = .ok r) (h' : parserInit E P w' disp' sel' = .ok r')
    (hi : 2 ≤ r.indices.length) (hi' : 2 ≤ r'.indices.length) (hT : 2 ≤ r.dc.n1) (hT' : 2 ≤ r'.dc.n1)
    (hN : r.dc.n1 ≤ N) (hN' : r'.dc.n1 ≤ N)
    (hsh : ∀ (i : ℕ) (a0 : Arr3 K), r.disp3d[i]? = some a0 → ∃ a : Arr3 K, r'.disp3d[i]? = some a ∧ (a.n1 = a0.n1 ∨ a.n1 = 1)) :
    r'.intervals = r.intervals ∧ r'.deltaT = r.deltaT := by
  obtain ⟨e1, e2, -⟩ := parserInit_multi h hs hi
  obtain ⟨f1, f2, -⟩ := parserInit_multi h' hs hi'
  obtain ⟨t, ht⟩ := hf
  obtain ⟨hz, hp⟩ := ht _ _ hT hN e1
  obtain ⟨hz', hp'⟩ := ht _ _ hT' hN' f1
  have hI : r'.intervals = r.intervals := by
    by_cases h0 : P.nSteps = 0
    · rw [hz h0, hz' h0]
    · obtain ⟨p1, p2, p3⟩ := hp h0
      obtain ⟨q1, q2, q3⟩ := hp' h0
      obtain ⟨a0, ha0, hn0⟩ := parserInit_windows h hs hi p1 p2
      obtain ⟨a, ha, hn1⟩ := parserInit_windows h' hs hi' q1 q2
      obtain ⟨a', ha', hor⟩ := hsh 0 a0 ha0
      obtain rfl : a = a' := Option.some.inj (ha.symm.trans ha')
      have hTT : r'.dc.n1 = r.dc.n1 := by omega
      rw [hTT] at f1
      exact Except.ok.inj (f1.symm.trans e1)
  exact ⟨hI, by rw [e2, f2, hI]⟩

/-- What a parser keeps of `Parser.__init__` with the parameters `P`; pymatgen changes the unit of the times by `f`. -/
def KeptFrom (E : Num K) (P : Params K) (f : K → K) (u : Parsed K) : Prop :=
  ∃ w disp sel r, parserInit E P w disp sel = .ok r ∧ u.intervals = r.intervals ∧ u.dc = r.dc ∧ u.indices = r.indices ∧
    u.disp3d = r.disp3d ∧ u.deltaT = r.deltaT.map f

theorem buildParser_kept {E : Num K} {P : Params K} {S : Select K} {st : Frame K} {coords : List (List (V3 K))}
    {latt : List (M3 K)} {u : Parsed K} (h : buildParser E P S st coords latt = .ok u) : KeptFrom E P id u := by
  obtain ⟨coords', sel, w, disp, r0, -, -, h3, rfl⟩ := buildParser_inv h
  exact ⟨w, disp, sel, r0, h3, rfl, rfl, rfl, rfl, by simp⟩

theorem aseParser_kept {E : Num K} {P : Params K} {S : Select K} {k : ℤ} {fr : List (Frame K)} {u : Parsed K}
    (h : aseParser E P S k fr = .ok u) : KeptFrom E P id u := by
  unfold aseParser at h
  cases h1 : pyStride k fr with
  | error e => rw [h1] at h; cases h
  | ok fr' =>
  rw [h1] at h
  simp only [bind, Except.bind] at h
  cases h2 : structureCoordsLatt fr' with
  | error e => rw [h2] at h; cases h
  | ok x => rw [h2] at h; exact buildParser_kept h

theorem pymatgenParser_kept {E : Num K} {P : Params K} {S : Select K} {k : ℤ} {fr : List (Frame K)} {u : Parsed K}
    (h : pymatgenParser E P S k fr = .ok u) :
    KeptFrom E { P with stepSkip := P.stepSkip.mul E.fl (.int k) } (fun t => E.fl (t * E.fl (1 / 10 ^ 3))) u := by
  unfold pymatgenParser at h
  cases h1 : pyStride k fr with
  | error e => rw [h1] at h; cases h
  | ok fr' =>
  rw [h1] at h
  simp only [bind, Except.bind] at h
  cases h2 : structureCoordsLatt fr' with
  | error e => rw [h2] at h; cases h
  | ok x =>
  rw [h2] at h
  dsimp only at h
  cases h3 : buildParser E { P with stepSkip := P.stepSkip.mul E.fl (.int k) } S x.1 x.2.1 x.2.2 with
  | error e => rw [h3] at h; cases h
  | ok r =>
  rw [h3] at h
  dsimp only at h
  split_ifs at h
  obtain rfl := Except.ok.inj h
  obtain ⟨w, disp, sel, r0, h4, e1, e2, e3, e4, e5⟩ := buildParser_kept h3
  refine ⟨w, disp, sel, r0, h4, e1, e2, e3, e4, ?_⟩
  dsimp only
  rw [e5, List.map_id]

theorem mdaParser_kept {E : Num K} {P : Params K} {S : Select K} {ka k : ℤ} {types : List String} {fr : List (MdaFrame K)}
    {u : Parsed K} (h : mdaParser E P S ka k types fr = .ok u) :
    KeptFrom E { P with stepSkip := P.stepSkip.mul E.fl (.int k) } id u := by
  unfold mdaParser at h
  dsimp only at h
  split_ifs at h
  cases h1 : pyStride k fr with
  | error e => rw [h1] at h; cases h
  | ok fr' =>
  rw [h1] at h
  simp only [bind, Except.bind] at h
  cases h2 : fr'.mapM (mdaFrame types ka) with
  | error e => rw [h2] at h; cases h
  | ok fr'' =>
  rw [h2] at h
  dsimp only at h
  cases h3 : structureCoordsLatt fr'' with
  | error e => rw [h3] at h; cases h
  | ok x => rw [h3] at h; exact buildParser_kept h

/-- Pooling of parsers that were all made with the same parameters. -/
theorem pooled_equal_grids {E : Num K} {N : ℕ} {P : Params K} {f : K → K} (hs : P.sampling = "multi-origin") (hf : SameFirst E P N)
    {α : Type} {parse : α → PyM (Parsed K)} {pj : Option (List α → PyM (Parsed K))} (hk : ∀ x u, parse x = .ok u → KeptFrom E P f u)
    {xs : List α} {u0 : Parsed K} {others : List (Parsed K)} (hp : xs.mapM parse = .ok (u0 :: others))
    (hu : ∀ u ∈ u0 :: others, 2 ≤ u.indices.length ∧ 2 ≤ u.dc.n1 ∧ u.dc.n1 ≤ N) {A : Base K}
    (hA : analyzerFrom parse pj (some "identical") (.several xs) = .ok A) :
    ∀ u ∈ others, u.intervals = u0.intervals ∧ u.deltaT = u0.deltaT ∧ A.deltaT = u.deltaT := by
  have hpool : poolIdentical (u0 :: others) = .ok A := by
    unfold analyzerFrom at hA
    dsimp only at hA
    rw [if_pos rfl] at hA
    simp only [Traj.asList, bind, Except.bind] at hA
    rw [hp] at hA
    exact hA
  have hshape := (C53_rejects_partial u0 others).1 ⟨A, hpool⟩
  have hdt : A.deltaT = u0.deltaT := by
    simp only [poolIdentical, bind, Except.bind] at hpool
    cases hnO : (u0 :: others).foldlM (fun acc u => addNO acc u.nO) (List.replicate u0.nO.length 0) with
    | error e => rw [hnO] at hpool; cases hpool
    | ok nO =>
    rw [hnO] at hpool
    cases hd : stackTrajectories u0 others with
    | error e => rw [hd] at hpool; cases hpool
    | ok disp =>
    rw [hd] at hpool
    obtain rfl := Except.ok.inj hpool
    rfl
  have hkept : ∀ u ∈ u0 :: others, KeptFrom E P f u := by
    intro u hmem
    obtain ⟨j, hj⟩ := List.mem_iff_getElem?.mp hmem
    obtain ⟨hl, hg⟩ := mapM_ok_inv hp
    have hjl : j < xs.length := by rw [← hl]; exact (List.getElem?_eq_some_iff.mp hj).1
    obtain ⟨y, hy, hyj⟩ := hg j _ (List.getElem?_eq_getElem hjl)
    obtain rfl : u = y := Option.some.inj (hj.symm.trans hyj)
    exact hk _ _ hy
  intro u hmem
  obtain ⟨w, disp, sel, r, h, i1, i2, i3, i4, i5⟩ := hkept u0 (by simp)
  obtain ⟨w', disp', sel', r', h', j1, j2, j3, j4, j5⟩ := hkept u (by simp [hmem])
  obtain ⟨a1, a2, a3⟩ := hu u0 (by simp)
  obtain ⟨b1, b2, b3⟩ := hu u (by simp [hmem])
  rw [i3] at a1
  rw [i2] at a2 a3
  rw [j3] at b1
  rw [j2] at b2 b3
  obtain ⟨e1, e2⟩ := parsers_equal_grids hs hf h h' a1 b1 a2 b2 a3 b3 (by
    intro i a0 ha0
    obtain ⟨a, ha, -, hn⟩ := (hshape u hmem).2 i a0 (by rw [i4]; exact ha0)
    exact ⟨a, by rw [← j4]; exact ha, hn⟩)
  have hD : u.deltaT = u0.deltaT := by rw [i5, j5, e2]
  exact ⟨by rw [i1, j1, e1], hD, by rw [hdt, hD]⟩

/-- **C76, what holds (ASE).** Several origins, linear spacing, any `min_dt`, `max_dt` and `n_steps`, at least two mobile atoms, any
rounding that is monotone and exact on the numbers of frames: trajectories are only pooled when all their intervals and times are
equal.  Missing: single-origin sampling, see `C76_violated`. -/
theorem C76_ase_partial (E : Num K) (N : ℕ) (R : Rounding E.fl N) (P : Params K) (S : Select K) (subTraj : ℤ)
    (hs : P.sampling = "multi-origin") (hlin : P.spacing = "linear") (hts : 0 ≤ P.timeStep.val) (hss : 0 ≤ P.stepSkip.val)
    (hmin : ∀ x, P.minDt = some x → 0 ≤ x) (trajs : List (List (Frame K))) (u0 : Parsed K) (others : List (Parsed K))
    (hp : trajs.mapM (aseParser E P S subTraj) = .ok (u0 :: others))
    (hu : ∀ u ∈ u0 :: others, 2 ≤ u.indices.length ∧ 2 ≤ u.dc.n1 ∧ u.dc.n1 ≤ N) (A : Base K)
    (hA : fromAse E P S subTraj (some "identical") (.several trajs) = .ok A) :
    ∀ u ∈ others, u.intervals = u0.intervals ∧ u.deltaT = u0.deltaT ∧ A.deltaT = u.deltaT :=
  pooled_equal_grids hs (sameFirst_linear R hlin hts hss hmin) (fun _ _ h => aseParser_kept h) hp hu hA

/-- **C76, what holds (pymatgen).** -/
theorem C76_pymatgen_partial (E : Num K) (N : ℕ) (R : Rounding E.fl N) (P : Params K) (S : Select K) (subTraj : ℤ) (hsub : 0 ≤ subTraj)
    (hs : P.sampling = "multi-origin") (hlin : P.spacing = "linear") (hts : 0 ≤ P.timeStep.val) (hss : 0 ≤ P.stepSkip.val)
    (hmin : ∀ x, P.minDt = some x → 0 ≤ x) (trajs : List (List (Frame K))) (u0 : Parsed K) (others : List (Parsed K))
    (hp : trajs.mapM (pymatgenParser E P S subTraj) = .ok (u0 :: others))
    (hu : ∀ u ∈ u0 :: others, 2 ≤ u.indices.length ∧ 2 ≤ u.dc.n1 ∧ u.dc.n1 ≤ N) (A : Base K)
    (hA : fromPymatgen E P S subTraj (some "identical") (.several trajs) = .ok A) :
    ∀ u ∈ others, u.intervals = u0.intervals ∧ u.deltaT = u0.deltaT ∧ A.deltaT = u.deltaT :=
  pooled_equal_grids (P := { P with stepSkip := P.stepSkip.mul E.fl (.int subTraj) }) hs (sameFirst_linear R hlin hts
    (PyNum.mul_nonneg_fl R hss (by simpa [PyNum.val] using hsub)) hmin) (fun _ _ h => pymatgenParser_kept h) hp hu hA

/-- **C76, what holds (MDAnalysis).** -/
theorem C76_universe_partial (E : Num K) (N : ℕ) (R : Rounding E.fl N) (P : Params K) (S : Select K) (subAtoms subTraj : ℤ) (hsub : 0 ≤ subTraj)
    (hs : P.sampling = "multi-origin") (hlin : P.spacing = "linear") (hts : 0 ≤ P.timeStep.val) (hss : 0 ≤ P.stepSkip.val)
    (hmin : ∀ x, P.minDt = some x → 0 ≤ x) (trajs : List (Universe K)) (u0 : Parsed K) (others : List (Parsed K))
    (hp : trajs.mapM (fun x => mdaParser E P S subAtoms subTraj x.1 x.2) = .ok (u0 :: others))
    (hu : ∀ u ∈ u0 :: others, 2 ≤ u.indices.length ∧ 2 ≤ u.dc.n1 ∧ u.dc.n1 ≤ N) (A : Base K)
    (hA : fromUniverse E P S subAtoms subTraj (some "identical") (.several trajs) = .ok A) :
    ∀ u ∈ others, u.intervals = u0.intervals ∧ u.deltaT = u0.deltaT ∧ A.deltaT = u.deltaT :=
  pooled_equal_grids (P := { P with stepSkip := P.stepSkip.mul E.fl (.int subTraj) }) hs (sameFirst_linear R hlin hts
    (PyNum.mul_nonneg_fl R hss (by simpa [PyNum.val] using hsub)) hmin) (fun _ _ h => mdaParser_kept h) hp hu hA

theorem skipped_pos {E : Num K} (hE : E.fl = id) {P : Params K} {k : ℤ} (h : 0 < P.stepSkip.val * k * P.timeStep.val) :
    0 < (P.stepSkip.mul E.fl (.int k)).val * P.timeStep.val := by
  rw [hE, PyNum.val_mul_id]
  exact h

theorem skipped_max {E : Num K} (hE : E.fl = id) {P : Params K} {k : ℤ} {y : K}
    (h : P.minDt.getD (P.stepSkip.val * k * P.timeStep.val) ≤ y ∧ P.stepSkip.val * k * P.timeStep.val ≤ y) :
    minDtOf id P.timeStep (P.stepSkip.mul E.fl (.int k)) P.minDt ≤ y ∧ (P.stepSkip.mul E.fl (.int k)).val * P.timeStep.val ≤ y := by
  rw [hE]
  obtain ⟨h1, h2⟩ := h
  refine ⟨?_, by rw [PyNum.val_mul_id]; exact h2⟩
  cases hm : P.minDt with
  | none =>
    simp only [minDtOf, PyNum.val_mul_id]
    exact h2
  | some x =>
    rw [hm] at h1
    exact h1

/-- **C76, what holds with logarithmic spacing.** The same in exact arithmetic, when `max_dt`, if given, is at least one frame and at least
`min_dt` (`geo`, the values of `np.geomspace`, only has to stay between the end points, as `geoReal` does). -/
theorem C76_logarithmic_partial (E : Num K) (hE : E.fl = id) (P : Params K) (S : Select K) (subTraj : ℤ)
    (hs : P.sampling = "multi-origin") (hlog : P.spacing = "logarithmic")
    (hgeo : ∀ (a b : ℤ) (n i : ℕ), 1 ≤ a → a ≤ b → i < n → (a : K) ≤ E.geo a b n i ∧ E.geo a b n i ≤ b)
    (hpos : 0 < P.stepSkip.val * P.timeStep.val) (hmin : ∀ x, P.minDt = some x → 0 ≤ x)
    (hmax : ∀ y, P.maxDt = some y → minDtOf id P.timeStep P.stepSkip P.minDt ≤ y ∧ P.stepSkip.val * P.timeStep.val ≤ y)
    (trajs : List (List (Frame K))) (u0 : Parsed K) (others : List (Parsed K))
    (hp : trajs.mapM (aseParser E P S subTraj) = .ok (u0 :: others))
    (hu : ∀ u ∈ u0 :: others, 2 ≤ u.indices.length ∧ 2 ≤ u.dc.n1) (A : Base K)
    (hA : fromAse E P S subTraj (some "identical") (.several trajs) = .ok A) :
    ∀ u ∈ others, u.intervals = u0.intervals ∧ u.deltaT = u0.deltaT ∧ A.deltaT = u.deltaT := by
  obtain ⟨N, hN⟩ : ∃ N : ℕ, ∀ u ∈ u0 :: others, u.dc.n1 ≤ N :=
    ⟨((u0 :: others).map fun u => u.dc.n1).sum, fun u h => List.le_sum_of_mem (List.mem_map.2 ⟨u, h, rfl⟩)⟩
  exact pooled_equal_grids hs (sameFirst_logarithmic hE hlog hgeo hpos hmin hmax N) (fun _ _ h => aseParser_kept h) hp
    (fun u h => ⟨(hu u h).1, (hu u h).2, hN u h⟩) hA

/-- The same for pymatgen; the interval between the stored frames is `sub_sample_traj` times as long. -/
theorem C76_logarithmic_pymatgen_partial (E : Num K) (hE : E.fl = id) (P : Params K) (S : Select K) (subTraj : ℤ)
    (hs : P.sampling = "multi-origin") (hlog : P.spacing = "logarithmic")
    (hgeo : ∀ (a b : ℤ) (n i : ℕ), 1 ≤ a → a ≤ b → i < n → (a : K) ≤ E.geo a b n i ∧ E.geo a b n i ≤ b)
    (hpos : 0 < P.stepSkip.val * subTraj * P.timeStep.val) (hmin : ∀ x, P.minDt = some x → 0 ≤ x)
    (hmax : ∀ y, P.maxDt = some y → P.minDt.getD (P.stepSkip.val * subTraj * P.timeStep.val) ≤ y ∧ P.stepSkip.val * subTraj * P.timeStep.val ≤ y)
    (trajs : List (List (Frame K))) (u0 : Parsed K) (others : List (Parsed K))
    (hp : trajs.mapM (pymatgenParser E P S subTraj) = .ok (u0 :: others))
    (hu : ∀ u ∈ u0 :: others, 2 ≤ u.indices.length ∧ 2 ≤ u.dc.n1) (A : Base K)
    (hA : fromPymatgen E P S subTraj (some "identical") (.several trajs) = .ok A) :
    ∀ u ∈ others, u.intervals = u0.intervals ∧ u.deltaT = u0.deltaT ∧ A.deltaT = u.deltaT := by
  obtain ⟨N, hN⟩ : ∃ N : ℕ, ∀ u ∈ u0 :: others, u.dc.n1 ≤ N :=
    ⟨((u0 :: others).map fun u => u.dc.n1).sum, fun u h => List.le_sum_of_mem (List.mem_map.2 ⟨u, h, rfl⟩)⟩
  refine pooled_equal_grids (P := { P with stepSkip := P.stepSkip.mul E.fl (.int subTraj) }) hs
    (sameFirst_logarithmic (P := { P with stepSkip := P.stepSkip.mul E.fl (.int subTraj) }) hE hlog hgeo (skipped_pos hE hpos) hmin (fun y hy => skipped_max hE (hmax y hy)) N) (fun _ _ h => pymatgenParser_kept h) hp
    (fun u h => ⟨(hu u h).1, (hu u h).2, hN u h⟩) hA

/-- The same for MDAnalysis. -/
theorem C76_logarithmic_universe_partial (E : Num K) (hE : E.fl = id) (P : Params K) (S : Select K) (subAtoms subTraj : ℤ)
    (hs : P.sampling = "multi-origin") (hlog : P.spacing = "logarithmic")
    (hgeo : ∀ (a b : ℤ) (n i : ℕ), 1 ≤ a → a ≤ b → i < n → (a : K) ≤ E.geo a b n i ∧ E.geo a b n i ≤ b)
    (hpos : 0 < P.stepSkip.val * subTraj * P.timeStep.val) (hmin : ∀ x, P.minDt = some x → 0 ≤ x)
    (hmax : ∀ y, P.maxDt = some y → P.minDt.getD (P.stepSkip.val * subTraj * P.timeStep.val) ≤ y ∧ P.stepSkip.val * subTraj * P.timeStep.val ≤ y)
    (trajs : List (Universe K)) (u0 : Parsed K) (others : List (Parsed K))
    (hp : trajs.mapM (fun x => mdaParser E P S subAtoms subTraj x.1 x.2) = .ok (u0 :: others))
    (hu : ∀ u ∈ u0 :: others, 2 ≤ u.indices.length ∧ 2 ≤ u.dc.n1) (A : Base K)
    (hA : fromUniverse E P S subAtoms subTraj (some "identical") (.several trajs) = .ok A) :
    ∀ u ∈ others, u.intervals = u0.intervals ∧ u.deltaT = u0.deltaT ∧ A.deltaT = u.deltaT := by
  obtain ⟨N, hN⟩ : ∃ N : ℕ, ∀ u ∈ u0 :: others, u.dc.n1 ≤ N :=
    ⟨((u0 :: others).map fun u => u.dc.n1).sum, fun u h => List.le_sum_of_mem (List.mem_map.2 ⟨u, h, rfl⟩)⟩
  refine pooled_equal_grids (P := { P with stepSkip := P.stepSkip.mul E.fl (.int subTraj) }) hs
    (sameFirst_logarithmic (P := { P with stepSkip := P.stepSkip.mul E.fl (.int subTraj) }) hE hlog hgeo (skipped_pos hE hpos) hmin (fun y hy => skipped_max hE (hmax y hy)) N) (fun _ _ h => mdaParser_kept h) hp
    (fun u h => ⟨(hu u h).1, (hu u h).2, hN u h⟩) hA

/-- Intervals from two to four frames. -/
def exGridded : Params ℚ := { exParams with minDt := some 12, maxDt := some 24, nSteps := 2 }

theorem exGridded_min {x : ℚ} (h : exGridded.minDt = some x) : 0 ≤ x := by
  obtain rfl : (12 : ℚ) = x := Option.some.inj h
  norm_num

theorem two_parsed {x : PyM (List (Parsed ℚ))} {c : ℕ × ℕ} (h : x.toOption.map (fun us => us.map fun u => (u.indices.length, u.dc.n1)) = some [c, c]) :
    ∃ u0 u1, x = .ok [u0, u1] ∧ ∀ u ∈ [u0, u1], u.indices.length = c.1 ∧ u.dc.n1 = c.2 := by
  cases x with
  | error e => cases h
  | ok us =>
    simp only [Except.toOption, Option.map_some, Option.some.injEq] at h
    have hl := congrArg List.length h
    rw [List.length_map] at hl
    obtain ⟨u0, u1, rfl⟩ := List.length_eq_two.1 hl
    refine ⟨u0, u1, rfl, fun u hu => ?_⟩
    have hm : (u.indices.length, u.dc.n1) ∈ [c, c] := by
      rw [← h]
      exact List.mem_map.2 ⟨u, hu, rfl⟩
    have : (u.indices.length, u.dc.n1) = c := by simpa using hm
    rw [← this]
    exact ⟨rfl, rfl⟩

/-- Two trajectories of the example system in arithmetic rounded to 53 bits, for the three input formats. -/
example : ∃ A, fromAse exNum64 exGridded exSelect 1 (some "identical") (.several [exTraj, exTraj.reverse]) = .ok A ∧
    ∃ u0 u1, [exTraj, exTraj.reverse].mapM (aseParser exNum64 exGridded exSelect 1) = .ok [u0, u1] ∧ u1.intervals = u0.intervals ∧
      u1.deltaT = u0.deltaT ∧ A.deltaT = u1.deltaT := by
  obtain ⟨A, hA⟩ := ok_of_isSome (x := fromAse exNum64 exGridded exSelect 1 (some "identical") (.several [exTraj, exTraj.reverse]))
    (by decide +kernel)
  obtain ⟨u0, u1, hu, hc⟩ := two_parsed (x := [exTraj, exTraj.reverse].mapM (aseParser exNum64 exGridded exSelect 1)) (c := (2, 5))
    (by decide +kernel)
  exact ⟨A, hA, u0, u1, hu, C76_ase_partial exNum64 (2 ^ 53) rounding_fl64 exGridded exSelect 1 rfl rfl (by decide +kernel) (by decide +kernel)
    (fun _ h => exGridded_min h) _ u0 [u1] hu (fun u h => by rw [(hc u h).1, (hc u h).2]; norm_num) A hA u1 (by simp)⟩

example : ∃ A, fromPymatgen exNum64 exGridded exSelect 1 (some "identical") (.several [exTraj, exTraj.reverse]) = .ok A ∧
    ∃ u0 u1, [exTraj, exTraj.reverse].mapM (pymatgenParser exNum64 exGridded exSelect 1) = .ok [u0, u1] ∧ u1.intervals = u0.intervals ∧
      u1.deltaT = u0.deltaT ∧ A.deltaT = u1.deltaT := by
  obtain ⟨A, hA⟩ := ok_of_isSome (x := fromPymatgen exNum64 exGridded exSelect 1 (some "identical") (.several [exTraj, exTraj.reverse]))
    (by decide +kernel)
  obtain ⟨u0, u1, hu, hc⟩ := two_parsed (x := [exTraj, exTraj.reverse].mapM (pymatgenParser exNum64 exGridded exSelect 1)) (c := (2, 5))
    (by decide +kernel)
  exact ⟨A, hA, u0, u1, hu, C76_pymatgen_partial exNum64 (2 ^ 53) rounding_fl64 exGridded exSelect 1 (by norm_num) rfl rfl (by decide +kernel)
    (by decide +kernel) (fun _ h => exGridded_min h) _ u0 [u1] hu (fun u h => by rw [(hc u h).1, (hc u h).2]; norm_num) A hA u1 (by simp)⟩

example : ∃ A, fromUniverse exNum64 exGridded exSelect 1 1 (some "identical") (.several [(["Li", "O", "Li"], exMda), (["Li", "O", "Li"], exMda.reverse)]) = .ok A ∧
    ∃ u0 u1, [(["Li", "O", "Li"], exMda), (["Li", "O", "Li"], exMda.reverse)].mapM
      (fun x : Universe ℚ => mdaParser exNum64 exGridded exSelect 1 1 x.1 x.2) = .ok [u0, u1] ∧ u1.intervals = u0.intervals ∧
      u1.deltaT = u0.deltaT ∧ A.deltaT = u1.deltaT := by
  obtain ⟨A, hA⟩ := ok_of_isSome (x := fromUniverse exNum64 exGridded exSelect 1 1 (some "identical")
    (.several [(["Li", "O", "Li"], exMda), (["Li", "O", "Li"], exMda.reverse)])) (by decide +kernel)
  obtain ⟨u0, u1, hu, hc⟩ := two_parsed (x := [(["Li", "O", "Li"], exMda), (["Li", "O", "Li"], exMda.reverse)].mapM
      (fun x : Universe ℚ => mdaParser exNum64 exGridded exSelect 1 1 x.1 x.2)) (c := (2, 5)) (by decide +kernel)
  exact ⟨A, hA, u0, u1, hu, C76_universe_partial exNum64 (2 ^ 53) rounding_fl64 exGridded exSelect 1 1 (by norm_num) rfl rfl (by decide +kernel)
    (by decide +kernel) (fun _ h => exGridded_min h) _ u0 [u1] hu (fun u h => by rw [(hc u h).1, (hc u h).2]; norm_num) A hA u1 (by simp)⟩

/-- One logarithmic interval is the same as one linear interval. -/
theorem one_interval_log (E : Num ℚ) (hE : E.fl = id) (S : Select ℚ) (fr : List (Frame ℚ)) :
    aseParser E { exGridded with nSteps := 1, spacing := "logarithmic" } S 1 fr = aseParser E { exGridded with nSteps := 1 } S 1 fr := by
  have hT : ∀ T : ℕ, initTimeIntervals E.fl E.geo T exGridded.timeStep exGridded.stepSkip exGridded.minDt exGridded.maxDt 1 "logarithmic" =
      initTimeIntervals E.fl E.geo T exGridded.timeStep exGridded.stepSkip exGridded.minDt exGridded.maxDt 1 exGridded.spacing := by
    intro T
    have h1 : stepsOf (id : ℚ → ℚ) exGridded.timeStep exGridded.stepSkip 12 = .ok 2 := by
      rw [stepsOf_id (by decide +kernel) (by norm_num)]; decide +kernel
    have h2 : stepsOf (id : ℚ → ℚ) exGridded.timeStep exGridded.stepSkip 24 = .ok 4 := by
      rw [stepsOf_id (by decide +kernel) (by norm_num)]; decide +kernel
    have hs : exGridded.spacing = "linear" := rfl
    have ha : exGridded.minDt = some 12 := rfl
    have hb : exGridded.maxDt = some 24 := rfl
    rw [hs, ha, hb, hE]
    unfold initTimeIntervals
    simp only [minDtOf, maxDtOf, h1, bind, Except.bind]
    by_cases hc : (2 : ℤ) ≥ T
    · rw [if_pos hc, if_pos hc]
    rw [if_neg hc, if_neg hc, if_neg (by omega)]
    unfold getTimeIntervals
    rw [h1, h2]
    simp [linspaceInt, geomspaceInt, npUnique, Except.map, bind, Except.bind]
  unfold aseParser buildParser parserInit
  simp only [hT]

/-- A `geomspace` that stays at its first point. -/
def exNumGeo : Num ℚ := { exNum with geo := fun a _ _ _ => a }

def exOneLog : Params ℚ := { exGridded with nSteps := 1, spacing := "logarithmic" }

/-- The same for one logarithmic interval. -/
example : ∃ A, fromAse exNumGeo exOneLog exSelect 1 (some "identical") (.several [exTraj, exTraj.reverse]) = .ok A ∧
    ∃ u0 u1, [exTraj, exTraj.reverse].mapM (aseParser exNumGeo exOneLog exSelect 1) = .ok [u0, u1] ∧
      u1.intervals = u0.intervals ∧ u1.deltaT = u0.deltaT ∧ A.deltaT = u1.deltaT := by
  have hf : aseParser exNumGeo exOneLog exSelect 1 = aseParser exNumGeo { exGridded with nSteps := 1 } exSelect 1 :=
    funext fun fr => one_interval_log exNumGeo rfl exSelect fr
  obtain ⟨A, hA⟩ := ok_of_isSome (x := fromAse exNumGeo { exGridded with nSteps := 1 } exSelect 1 (some "identical")
    (.several [exTraj, exTraj.reverse])) (by decide +kernel)
  obtain ⟨u0, u1, hu, hc⟩ := two_parsed (x := [exTraj, exTraj.reverse].mapM (aseParser exNumGeo { exGridded with nSteps := 1 } exSelect 1))
    (c := (2, 5)) (by decide +kernel)
  unfold fromAse at hA
  rw [← hf] at hA hu
  refine ⟨A, hA, u0, u1, hu, C76_logarithmic_partial exNumGeo rfl exOneLog exSelect 1 rfl rfl ?_ (by decide +kernel)
    (fun _ h => exGridded_min h) ?_ _ u0 [u1] hu (fun u h => by rw [(hc u h).1, (hc u h).2]; norm_num) A hA u1 (by simp)⟩
  · intro a b n i _ hab _
    exact ⟨le_refl _, Int.cast_le.2 hab⟩
  · intro y h
    obtain rfl : (24 : ℚ) = y := Option.some.inj h
    constructor <;> decide +kernel

/-- One logarithmic interval is the same as one linear interval, for the two other parsers. -/
theorem one_interval_log_any (E : Num ℚ) (hE : E.fl = id) (T : ℕ) (ss : PyNum ℚ) (hss : ss.val = exGridded.stepSkip.val) (hi : ss.isInt = exGridded.stepSkip.isInt) :
    initTimeIntervals E.fl E.geo T exGridded.timeStep ss exGridded.minDt exGridded.maxDt 1 "logarithmic" =
      initTimeIntervals E.fl E.geo T exGridded.timeStep ss exGridded.minDt exGridded.maxDt 1 exGridded.spacing := by
  have hp : 0 < ss.val * exGridded.timeStep.val := by rw [hss]; decide +kernel
  have h1 : stepsOf (id : ℚ → ℚ) exGridded.timeStep ss 12 = .ok 2 := by
    rw [stepsOf_id hp (by norm_num), hss]; decide +kernel
  have h2 : stepsOf (id : ℚ → ℚ) exGridded.timeStep ss 24 = .ok 4 := by
    rw [stepsOf_id hp (by norm_num), hss]; decide +kernel
  have hs : exGridded.spacing = "linear" := rfl
  have ha : exGridded.minDt = some 12 := rfl
  have hb : exGridded.maxDt = some 24 := rfl
  rw [hs, ha, hb, hE]
  unfold initTimeIntervals
  simp only [minDtOf, maxDtOf, h1, bind, Except.bind]
  by_cases hc : (2 : ℤ) ≥ T
  · rw [if_pos hc, if_pos hc]
  rw [if_neg hc, if_neg hc, if_neg (by omega)]
  unfold getTimeIntervals
  rw [h1, h2]
  simp [linspaceInt, geomspaceInt, npUnique, Except.map, bind, Except.bind]

/-- `C76_logarithmic_pymatgen_partial`, `C76_logarithmic_universe_partial`: the same. -/
example : ∃ A, fromPymatgen exNumGeo exOneLog exSelect 1 (some "identical") (.several [exTraj, exTraj.reverse]) = .ok A ∧
    ∃ u0 u1, [exTraj, exTraj.reverse].mapM (pymatgenParser exNumGeo exOneLog exSelect 1) = .ok [u0, u1] ∧
      u1.intervals = u0.intervals ∧ u1.deltaT = u0.deltaT ∧ A.deltaT = u1.deltaT := by
  have hf : pymatgenParser exNumGeo exOneLog exSelect 1 = pymatgenParser exNumGeo { exGridded with nSteps := 1 } exSelect 1 := by
    funext fr
    have hT := fun T => one_interval_log_any exNumGeo rfl T (exGridded.stepSkip.mul exNumGeo.fl (.int 1)) (by decide +kernel) (by decide +kernel)
    unfold pymatgenParser buildParser parserInit exOneLog
    simp only [hT]
  obtain ⟨A, hA⟩ := ok_of_isSome (x := fromPymatgen exNumGeo { exGridded with nSteps := 1 } exSelect 1 (some "identical")
    (.several [exTraj, exTraj.reverse])) (by decide +kernel)
  obtain ⟨u0, u1, hu, hc⟩ := two_parsed (x := [exTraj, exTraj.reverse].mapM (pymatgenParser exNumGeo { exGridded with nSteps := 1 } exSelect 1))
    (c := (2, 5)) (by decide +kernel)
  unfold fromPymatgen at hA
  rw [← hf] at hA hu
  refine ⟨A, hA, u0, u1, hu, C76_logarithmic_pymatgen_partial exNumGeo rfl exOneLog exSelect 1 rfl rfl ?_ (by decide +kernel)
    (fun _ h => exGridded_min h) ?_ _ u0 [u1] hu (fun u h => by rw [(hc u h).1, (hc u h).2]; norm_num) A hA u1 (by simp)⟩
  · intro a b n i _ hab _
    exact ⟨le_refl _, Int.cast_le.2 hab⟩
  · intro y h
    obtain rfl : (24 : ℚ) = y := Option.some.inj h
    constructor <;> decide +kernel

example : ∃ A, fromUniverse exNumGeo exOneLog exSelect 1 1 (some "identical") (.several [(["Li", "O", "Li"], exMda), (["Li", "O", "Li"], exMda.reverse)]) = .ok A ∧
    ∃ u0 u1, [(["Li", "O", "Li"], exMda), (["Li", "O", "Li"], exMda.reverse)].mapM
      (fun x : Universe ℚ => mdaParser exNumGeo exOneLog exSelect 1 1 x.1 x.2) = .ok [u0, u1] ∧ u1.intervals = u0.intervals ∧
      u1.deltaT = u0.deltaT ∧ A.deltaT = u1.deltaT := by
  have hf : (fun x : Universe ℚ => mdaParser exNumGeo exOneLog exSelect 1 1 x.1 x.2) =
      fun x : Universe ℚ => mdaParser exNumGeo { exGridded with nSteps := 1 } exSelect 1 1 x.1 x.2 := by
    funext x
    have hT := fun T => one_interval_log_any exNumGeo rfl T (exGridded.stepSkip.mul exNumGeo.fl (.int 1)) (by decide +kernel) (by decide +kernel)
    unfold mdaParser buildParser parserInit exOneLog
    simp only [hT]
  obtain ⟨A, hA⟩ := ok_of_isSome (x := fromUniverse exNumGeo { exGridded with nSteps := 1 } exSelect 1 1 (some "identical")
    (.several [(["Li", "O", "Li"], exMda), (["Li", "O", "Li"], exMda.reverse)])) (by decide +kernel)
  obtain ⟨u0, u1, hu, hc⟩ := two_parsed (x := [(["Li", "O", "Li"], exMda), (["Li", "O", "Li"], exMda.reverse)].mapM
      (fun x : Universe ℚ => mdaParser exNumGeo { exGridded with nSteps := 1 } exSelect 1 1 x.1 x.2)) (c := (2, 5)) (by decide +kernel)
  unfold fromUniverse at hA
  rw [← hf] at hA hu
  refine ⟨A, hA, u0, u1, hu, C76_logarithmic_universe_partial exNumGeo rfl exOneLog exSelect 1 1 rfl rfl ?_ (by decide +kernel)
    (fun _ h => exGridded_min h) ?_ _ u0 [u1] hu (fun u h => by rw [(hc u h).1, (hc u h).2]; norm_num) A hA u1 (by simp)⟩
  · intro a b n i _ hab _
    exact ⟨le_refl _, Int.cast_le.2 hab⟩
  · intro y h
    obtain rfl : (24 : ℚ) = y := Option.some.inj h
    constructor <;> decide +kernel

end Kinisi
