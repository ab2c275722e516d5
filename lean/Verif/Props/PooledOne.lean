import Verif.Props.Pooled

/-!
# C76 for trajectories with a single mobile atom
-/

set_option linter.unusedSectionVars false
set_option linter.unusedVariables false

namespace Kinisi
open Spec

variable {K : Type} [Field K] [LinearOrder K] [IsStrictOrderedRing K] [FloorRing K]

theorem filterMap_id_head {α : Type} {l : List (Option α)} {y : α} (h : l[0]? = some (some y)) : (l.filterMap id)[0]? = some y := by
  cases l with
  | nil => cases h
  | cons x l =>
    obtain rfl : x = some y := by simpa using h
    rfl

theorem strideCount_anti {T s t : ℕ} (hs : 1 ≤ s) (hst : s ≤ t) (ht : t ≤ T) : strideCount (T + 1 - t) (t : ℤ) ≤ strideCount (T + 1 - s) (s : ℤ) := by
  unfold strideCount
  rw [Int.natAbs_natCast, Int.natAbs_natCast, show T + 1 - t + t - 1 = T by omega, show T + 1 - s + s - 1 = T by omega]
  exact Nat.div_le_div_left hst (by omega)

/-- An interval that is not longer than one with observations has observations. -/
theorem oneInterval_shorter {fl : K → K} {idx : List ℤ} {last : ℤ} {dc : Arr3 K} {σ τ : ℤ} {i j : ℕ} {x : Arr3 K × K} {y : Option (Arr3 K × K)}
    (h1 : 1 ≤ σ) (hστ : σ ≤ τ) (h : oneInterval fl idx "multi-origin" last dc (τ, j) = .ok (some x))
    (h' : oneInterval fl idx "multi-origin" last dc (σ, i) = .ok y) : ∃ z, y = some z := by
  obtain ⟨-, hle⟩ := oneInterval_multi_inv h
  obtain ⟨t, rfl⟩ : ∃ t : ℕ, τ = t := ⟨τ.toNat, by omega⟩
  obtain ⟨s, rfl⟩ : ∃ s : ℕ, σ = s := ⟨σ.toNat, by omega⟩
  unfold oneInterval at h h'
  dsimp only at h h'
  cases hr : idx.mapM (npIdx dc.n0) with
  | error e => rw [hr] at h; cases h
  | ok rows =>
  rw [hr] at h h'
  simp only [bind, Except.bind] at h h'
  rw [if_neg (by decide), if_pos trivial, multiOrigin_ok dc rows (by omega) (by omega)] at h h'
  dsimp only at h h'
  rw [if_neg (by omega)] at h h'
  have w := (windowArr_isWindows dc rows (τ := t) (by omega) (by omega)).2.1
  have w' := (windowArr_isWindows dc rows (τ := s) (by omega) (by omega)).2.1
  have n : (windowArr dc rows t).n0 = rows.length := rfl
  have n' : (windowArr dc rows s).n0 = rows.length := rfl
  by_cases hc : (windowArr dc rows t).n0 * strideCount (windowArr dc rows t).n1 (t : ℤ) ≤ 1
  · rw [if_pos hc] at h
    cases h
  by_cases hc' : (windowArr dc rows s).n0 * strideCount (windowArr dc rows s).n1 (s : ℤ) ≤ 1
  · exfalso
    apply hc
    refine le_trans ?_ hc'
    rw [n, n']
    refine Nat.mul_le_mul_left _ ?_
    rw [show (windowArr dc rows t).n1 = dc.n1 + 1 - t by omega, show (windowArr dc rows s).n1 = dc.n1 + 1 - s by omega]
    exact strideCount_anti (by omega) (by omega) (by omega)
  · rw [if_neg hc'] at h'
    exact ⟨_, (Except.ok.inj h').symm⟩

/-- The first array of a parser belongs to its first interval, if the intervals ascend and there is an array at all; it has more than one
observation of each atom. -/
theorem parserInit_first {E : Num K} {P : Params K} {w : Bool} {disp : Arr3 K} {sel : Selection} {r : Parsed K}
    (h : parserInit E P w disp sel = .ok r) (hs : P.sampling = "multi-origin") :
    initTimeIntervals E.fl E.geo r.dc.n1 P.timeStep P.stepSkip P.minDt P.maxDt P.nSteps P.spacing = .ok r.intervals ∧
      r.deltaT = (r.intervals.map fun τ => (deltaTOf E.fl P.timeStep P.stepSkip τ).val) ∧
      (r.disp3d ≠ [] → r.intervals.Pairwise (· ≤ ·) → ∀ τ : ℤ, r.intervals[0]? = some τ → 1 ≤ τ →
        ∃ a, r.disp3d[0]? = some a ∧ (a.n1 : ℤ) = r.dc.n1 + 1 - τ) := by
  unfold parserInit at h
  cases h4 : correctDriftSeq sel.drift disp with
  | error e => rw [h4] at h; cases h
  | ok dc =>
  rw [h4] at h
  simp only [bind, Except.bind] at h
  cases h5 : initTimeIntervals E.fl E.geo dc.n1 P.timeStep P.stepSkip P.minDt P.maxDt P.nSteps P.spacing with
  | error e => rw [h5] at h; cases h
  | ok ti =>
  rw [h5] at h
  simp only at h
  cases h6 : getDisps E.fl (E.fl (1 / 10 ^ 9)) P.itemsize P.timeStep P.stepSkip sel.indices P.sampling P.memoryLimit ti dc with
  | error e => rw [h6] at h; cases h
  | ok o =>
  rw [h6] at h
  obtain rfl := Except.ok.inj h
  dsimp only
  unfold getDisps at h6
  cases hc : checkRows ti sel.indices dc.n0 with
  | error e => rw [hc] at h6; cases h6
  | ok rows =>
  rw [hc] at h6
  simp only [bind, Except.bind] at h6
  split at h6
  · cases h6
  cases hm : ti.zipIdx.mapM (oneInterval E.fl sel.indices P.sampling (ti.getLastD 0) dc) with
  | error e => rw [hm] at h6; cases h6
  | ok l =>
  rw [hm] at h6
  obtain rfl := Except.ok.inj h6
  refine ⟨h5, rfl, fun hne hasc τ hτ h1 => ?_⟩
  dsimp only at hne ⊢
  obtain ⟨hl, hg⟩ := mapM_ok_inv hm
  rw [hs] at hg
  obtain ⟨x, hx⟩ : ∃ x, x ∈ l.filterMap id := by
    cases hfm : l.filterMap id with
    | nil => rw [hfm] at hne; exact absurd rfl hne
    | cons x _ => exact ⟨x, by simp⟩
  obtain ⟨x', hx', rfl⟩ := List.mem_filterMap.mp hx
  obtain ⟨j, hxj⟩ := List.mem_iff_getElem?.mp hx'
  have hjl : j < ti.zipIdx.length := by rw [← hl]; exact (List.getElem?_eq_some_iff.mp hxj).1
  rw [List.length_zipIdx] at hjl
  obtain ⟨y, hy, hyj⟩ := hg j (ti[j], j) (by rw [List.getElem?_zipIdx, List.getElem?_eq_getElem hjl]; simp)
  obtain rfl : some x = y := Option.some.inj (hxj.symm.trans hyj)
  obtain ⟨y0, hy0, hyj0⟩ := hg 0 (τ, 0) (by rw [List.getElem?_zipIdx, hτ]; simp)
  obtain ⟨h0l, h0e⟩ := List.getElem?_eq_some_iff.mp hτ
  have hle : τ ≤ ti[j] := by
    rw [← h0e]
    rcases Nat.eq_zero_or_pos j with rfl | hj
    · exact le_rfl
    · exact List.pairwise_iff_getElem.1 hasc 0 j h0l hjl hj
  obtain ⟨z, rfl⟩ := oneInterval_shorter h1 hle hy hy0
  refine ⟨z.1, ?_, oneInterval_shape h1 hy0⟩
  rw [List.getElem?_map, filterMap_id_head hyj0]
  rfl

/-- Pooling of parsers that were all made with the same parameters, any number of atoms. -/
theorem pooled_equal_grids_any {E : Num K} {N : ℕ} {P : Params K} {f : K → K} (hs : P.sampling = "multi-origin") (hf : SameFirst E P N)
    {α : Type} {parse : α → PyM (Parsed K)} {pj : Option (List α → PyM (Parsed K))} (hk : ∀ x u, parse x = .ok u → KeptFrom E P f u)
    {xs : List α} {u0 : Parsed K} {others : List (Parsed K)} (hp : xs.mapM parse = .ok (u0 :: others)) (hne : u0.disp3d ≠ [])
    (hu : ∀ u ∈ u0 :: others, u.intervals.Pairwise (· ≤ ·) ∧ 2 ≤ u.dc.n1 ∧ u.dc.n1 ≤ N) {A : Base K}
    (hA : analyzerFrom parse pj (some "identical") (.several xs) = .ok A) :
    ∀ u ∈ others, u.intervals = u0.intervals ∧ u.deltaT = u0.deltaT ∧ A.deltaT = u.deltaT := by
  have hpool : poolIdentical (u0 :: others) = .ok A := by
    unfold analyzerFrom at hA
    dsimp only at hA
    rw [if_pos rfl] at hA
    simp only [Traj.asList, bind, Except.bind] at hA
    rw [hp] at hA
    exact hA
  have hshape := (C53_rejects_partial u0 others).1 ⟨A, hpool⟩
  have hdt : A.deltaT = u0.deltaT := by
    simp only [poolIdentical, bind, Except.bind] at hpool
    cases hnO : (u0 :: others).foldlM (fun acc u => addNO acc u.nO) (List.replicate u0.nO.length 0) with
    | error e => rw [hnO] at hpool; cases hpool
    | ok nO =>
    rw [hnO] at hpool
    cases hd : stackTrajectories u0 others with
    | error e => rw [hd] at hpool; cases hpool
    | ok disp =>
    rw [hd] at hpool
    obtain rfl := Except.ok.inj hpool
    rfl
  have hkept : ∀ u ∈ u0 :: others, KeptFrom E P f u := by
    intro u hmem
    obtain ⟨j, hj⟩ := List.mem_iff_getElem?.mp hmem
    obtain ⟨hl, hg⟩ := mapM_ok_inv hp
    have hjl : j < xs.length := by rw [← hl]; exact (List.getElem?_eq_some_iff.mp hj).1
    obtain ⟨y, hy, hyj⟩ := hg j _ (List.getElem?_eq_getElem hjl)
    obtain rfl : u = y := Option.some.inj (hj.symm.trans hyj)
    exact hk _ _ hy
  intro u hmem
  obtain ⟨w, disp, sel, r, h, i1, i2, i3, i4, i5⟩ := hkept u0 (by simp)
  obtain ⟨w', disp', sel', r', h', j1, j2, j3, j4, j5⟩ := hkept u (by simp [hmem])
  obtain ⟨a1, a2, a3⟩ := hu u0 (by simp)
  obtain ⟨b1, b2, b3⟩ := hu u (by simp [hmem])
  rw [i1] at a1
  rw [i2] at a2 a3
  rw [j1] at b1
  rw [j2] at b2 b3
  rw [i4] at hne
  obtain ⟨e1, e2, e3⟩ := parserInit_first h hs
  obtain ⟨f1, f2, f3⟩ := parserInit_first h' hs
  obtain ⟨t, ht⟩ := hf
  obtain ⟨hz, hq⟩ := ht _ _ a2 a3 e1
  obtain ⟨hz', hq'⟩ := ht _ _ b2 b3 f1
  have hI : r'.intervals = r.intervals := by
    by_cases h0 : P.nSteps = 0
    · rw [hz h0, hz' h0]
    · obtain ⟨p1, p2, p3⟩ := hq h0
      obtain ⟨q1, q2, q3⟩ := hq' h0
      obtain ⟨a, ha, hn⟩ := e3 hne a1 t p1 p2
      obtain ⟨b, hb, -, hor⟩ := (hshape u hmem).2 0 a (by rw [i4]; exact ha)
      rw [j4] at hb
      obtain ⟨b', hb', hn'⟩ := f3 (fun h => by rw [h] at hb; cases hb) b1 t q1 q2
      obtain rfl : b = b' := Option.some.inj (hb.symm.trans hb')
      have hTT : r'.dc.n1 = r.dc.n1 := by omega
      rw [hTT] at f1
      exact Except.ok.inj (f1.symm.trans e1)
  have hD : u.deltaT = u0.deltaT := by rw [i5, j5, e2, f2, hI]
  exact ⟨by rw [i1, j1, hI], hD, by rw [hdt, hD]⟩

/-- **C76, any number of mobile atoms (ASE).** Several origins, linear spacing, intervals that ascend (C07), any rounding that is monotone
and exact on the numbers of frames: if the first trajectory has observations at all, trajectories are only pooled when their intervals
and times are equal. -/
theorem C76_atoms_ase_partial (E : Num K) (N : ℕ) (R : Rounding E.fl N) (P : Params K) (S : Select K) (subTraj : ℤ)
    (hs : P.sampling = "multi-origin") (hlin : P.spacing = "linear") (hts : 0 ≤ P.timeStep.val) (hss : 0 ≤ P.stepSkip.val)
    (hmin : ∀ x, P.minDt = some x → 0 ≤ x) (trajs : List (List (Frame K))) (u0 : Parsed K) (others : List (Parsed K))
    (hp : trajs.mapM (aseParser E P S subTraj) = .ok (u0 :: others)) (hne : u0.disp3d ≠ [])
    (hu : ∀ u ∈ u0 :: others, u.intervals.Pairwise (· ≤ ·) ∧ 2 ≤ u.dc.n1 ∧ u.dc.n1 ≤ N) (A : Base K)
    (hA : fromAse E P S subTraj (some "identical") (.several trajs) = .ok A) :
    ∀ u ∈ others, u.intervals = u0.intervals ∧ u.deltaT = u0.deltaT ∧ A.deltaT = u.deltaT :=
  pooled_equal_grids_any hs (sameFirst_linear R hlin hts hss hmin) (fun _ _ h => aseParser_kept h) hp hne hu hA

/-- **C76, any number of mobile atoms (pymatgen).** -/
theorem C76_atoms_pymatgen_partial (E : Num K) (N : ℕ) (R : Rounding E.fl N) (P : Params K) (S : Select K) (subTraj : ℤ) (hsub : 0 ≤ subTraj)
    (hs : P.sampling = "multi-origin") (hlin : P.spacing = "linear") (hts : 0 ≤ P.timeStep.val) (hss : 0 ≤ P.stepSkip.val)
    (hmin : ∀ x, P.minDt = some x → 0 ≤ x) (trajs : List (List (Frame K))) (u0 : Parsed K) (others : List (Parsed K))
    (hp : trajs.mapM (pymatgenParser E P S subTraj) = .ok (u0 :: others)) (hne : u0.disp3d ≠ [])
    (hu : ∀ u ∈ u0 :: others, u.intervals.Pairwise (· ≤ ·) ∧ 2 ≤ u.dc.n1 ∧ u.dc.n1 ≤ N) (A : Base K)
    (hA : fromPymatgen E P S subTraj (some "identical") (.several trajs) = .ok A) :
    ∀ u ∈ others, u.intervals = u0.intervals ∧ u.deltaT = u0.deltaT ∧ A.deltaT = u.deltaT :=
  pooled_equal_grids_any (P := { P with stepSkip := P.stepSkip.mul E.fl (.int subTraj) }) hs (sameFirst_linear R hlin hts
    (PyNum.mul_nonneg_fl R hss (by simpa [PyNum.val] using hsub)) hmin) (fun _ _ h => pymatgenParser_kept h) hp hne hu hA

/-- **C76, any number of mobile atoms (MDAnalysis).** -/
theorem C76_atoms_universe_partial (E : Num K) (N : ℕ) (R : Rounding E.fl N) (P : Params K) (S : Select K) (subAtoms subTraj : ℤ)
    (hsub : 0 ≤ subTraj) (hs : P.sampling = "multi-origin") (hlin : P.spacing = "linear") (hts : 0 ≤ P.timeStep.val)
    (hss : 0 ≤ P.stepSkip.val) (hmin : ∀ x, P.minDt = some x → 0 ≤ x) (trajs : List (Universe K)) (u0 : Parsed K)
    (others : List (Parsed K)) (hp : trajs.mapM (fun x => mdaParser E P S subAtoms subTraj x.1 x.2) = .ok (u0 :: others))
    (hne : u0.disp3d ≠ []) (hu : ∀ u ∈ u0 :: others, u.intervals.Pairwise (· ≤ ·) ∧ 2 ≤ u.dc.n1 ∧ u.dc.n1 ≤ N) (A : Base K)
    (hA : fromUniverse E P S subAtoms subTraj (some "identical") (.several trajs) = .ok A) :
    ∀ u ∈ others, u.intervals = u0.intervals ∧ u.deltaT = u0.deltaT ∧ A.deltaT = u.deltaT :=
  pooled_equal_grids_any (P := { P with stepSkip := P.stepSkip.mul E.fl (.int subTraj) }) hs (sameFirst_linear R hlin hts
    (PyNum.mul_nonneg_fl R hss (by simpa [PyNum.val] using hsub)) hmin) (fun _ _ h => mdaParser_kept h) hp hne hu hA

/-- One mobile atom. -/
def exSelectOne : Select ℚ := ⟨some ["O"], .none, none, none⟩

theorem two_ascending {x : PyM (List (Parsed ℚ))} {l : List ℤ} {n a : ℕ} (hl : l.Pairwise (· ≤ ·)) (ha : a ≠ 0)
    (h : x.toOption.map (fun us => us.map fun u => (u.intervals, u.dc.n1, u.disp3d.length)) = some [(l, n, a), (l, n, a)]) :
    ∃ u0 u1, x = .ok [u0, u1] ∧ u0.disp3d ≠ [] ∧ ∀ u ∈ [u0, u1], u.intervals.Pairwise (· ≤ ·) ∧ u.dc.n1 = n := by
  cases x with
  | error e => cases h
  | ok us =>
    simp only [Except.toOption, Option.map_some, Option.some.injEq] at h
    have hlen := congrArg List.length h
    rw [List.length_map] at hlen
    obtain ⟨u0, u1, rfl⟩ := List.length_eq_two.1 hlen
    simp only [List.map_cons, List.map_nil, List.cons.injEq, Prod.mk.injEq, and_true] at h
    obtain ⟨⟨e1, e2, e3⟩, f1, f2, -⟩ := h
    refine ⟨u0, u1, rfl, fun hc => ha ?_, fun u hu => ?_⟩
    · rw [← e3, hc]; rfl
    · rcases List.mem_pair.1 hu with rfl | rfl
      · exact ⟨by rw [e1]; exact hl, e2⟩
      · exact ⟨by rw [f1]; exact hl, f2⟩

/-- Two trajectories with one mobile atom in arithmetic rounded to 53 bits, for the three input formats. -/
example : ∃ A, fromAse exNum64 exGridded exSelectOne 1 (some "identical") (.several [exTraj, exTraj.reverse]) = .ok A ∧
    ∃ u0 u1, [exTraj, exTraj.reverse].mapM (aseParser exNum64 exGridded exSelectOne 1) = .ok [u0, u1] ∧ u1.intervals = u0.intervals ∧
      u1.deltaT = u0.deltaT ∧ A.deltaT = u1.deltaT := by
  obtain ⟨A, hA⟩ := ok_of_isSome (x := fromAse exNum64 exGridded exSelectOne 1 (some "identical") (.several [exTraj, exTraj.reverse]))
    (by decide +kernel)
  obtain ⟨u0, u1, hu, h0, hc⟩ := two_ascending (x := [exTraj, exTraj.reverse].mapM (aseParser exNum64 exGridded exSelectOne 1)) (l := [2, 4]) (n := 5)
    (a := 1) (by decide) (by decide) (by decide +kernel)
  exact ⟨A, hA, u0, u1, hu, C76_atoms_ase_partial exNum64 (2 ^ 53) rounding_fl64 exGridded exSelectOne 1 rfl rfl (by decide +kernel)
    (by decide +kernel) (fun _ h => exGridded_min h) _ u0 [u1] hu h0 (fun u h => ⟨(hc u h).1, by rw [(hc u h).2]; norm_num⟩) A hA u1 (by simp)⟩

example : ∃ A, fromPymatgen exNum64 exGridded exSelectOne 1 (some "identical") (.several [exTraj, exTraj.reverse]) = .ok A ∧
    ∃ u0 u1, [exTraj, exTraj.reverse].mapM (pymatgenParser exNum64 exGridded exSelectOne 1) = .ok [u0, u1] ∧ u1.intervals = u0.intervals ∧
      u1.deltaT = u0.deltaT ∧ A.deltaT = u1.deltaT := by
  obtain ⟨A, hA⟩ := ok_of_isSome (x := fromPymatgen exNum64 exGridded exSelectOne 1 (some "identical") (.several [exTraj, exTraj.reverse]))
    (by decide +kernel)
  obtain ⟨u0, u1, hu, h0, hc⟩ := two_ascending (x := [exTraj, exTraj.reverse].mapM (pymatgenParser exNum64 exGridded exSelectOne 1)) (l := [2, 4]) (n := 5)
    (a := 1) (by decide) (by decide) (by decide +kernel)
  exact ⟨A, hA, u0, u1, hu, C76_atoms_pymatgen_partial exNum64 (2 ^ 53) rounding_fl64 exGridded exSelectOne 1 (by norm_num) rfl rfl
    (by decide +kernel) (by decide +kernel) (fun _ h => exGridded_min h) _ u0 [u1] hu h0
    (fun u h => ⟨(hc u h).1, by rw [(hc u h).2]; norm_num⟩) A hA u1 (by simp)⟩

example : ∃ A, fromUniverse exNum64 exGridded exSelectOne 1 1 (some "identical")
      (.several [(["Li", "O", "Li"], exMda), (["Li", "O", "Li"], exMda.reverse)]) = .ok A ∧
    ∃ u0 u1, [(["Li", "O", "Li"], exMda), (["Li", "O", "Li"], exMda.reverse)].mapM
      (fun x : Universe ℚ => mdaParser exNum64 exGridded exSelectOne 1 1 x.1 x.2) = .ok [u0, u1] ∧ u1.intervals = u0.intervals ∧
      u1.deltaT = u0.deltaT ∧ A.deltaT = u1.deltaT := by
  obtain ⟨A, hA⟩ := ok_of_isSome (x := fromUniverse exNum64 exGridded exSelectOne 1 1 (some "identical")
    (.several [(["Li", "O", "Li"], exMda), (["Li", "O", "Li"], exMda.reverse)])) (by decide +kernel)
  obtain ⟨u0, u1, hu, h0, hc⟩ := two_ascending (x := [(["Li", "O", "Li"], exMda), (["Li", "O", "Li"], exMda.reverse)].mapM
      (fun x : Universe ℚ => mdaParser exNum64 exGridded exSelectOne 1 1 x.1 x.2)) (l := [2, 4]) (n := 5) (a := 1) (by decide) (by decide)
    (by decide +kernel)
  exact ⟨A, hA, u0, u1, hu, C76_atoms_universe_partial exNum64 (2 ^ 53) rounding_fl64 exGridded exSelectOne 1 1 (by norm_num) rfl rfl
    (by decide +kernel) (by decide +kernel) (fun _ h => exGridded_min h) _ u0 [u1] hu h0
    (fun u h => ⟨(hc u h).1, by rw [(hc u h).2]; norm_num⟩) A hA u1 (by simp)⟩

/-- **C76, violated without observations.** One mobile atom and a `min_dt` of more than half of both trajectories: nothing is observed, and
trajectories of five and of seven frames are pooled with the times of the first. -/
theorem C76_violated_empty :
    [exTraj, exTraj ++ exTraj.take 2].map (fun fr => (aseParser exNum { exParams with minDt := some 24 } exSelectOne 1 fr).toOption.map
      fun u => (u.deltaT, u.disp3d.length)) = [some ([24, 30], 0), some ([24, 30, 36, 42], 0)] ∧
    (fromAse exNum { exParams with minDt := some 24 } exSelectOne 1 (some "identical")
      (.several [exTraj, exTraj ++ exTraj.take 2])).toOption.map (fun A => (A.deltaT, A.disp3d.length)) = some ([24, 30], 0) := by
  refine ⟨?_, ?_⟩ <;> decide +kernel

end Kinisi
