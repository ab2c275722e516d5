import Verif.Lemmas.Analyzer
import Verif.Props.Parser
import Verif.Props.TimeGrid
import Verif.Props.Observables

/-!
# C53 – C57: one or several trajectories
-/

set_option linter.unusedSectionVars false
set_option linter.unusedVariables false

namespace Kinisi
open Spec
variable {K : Type} [Field K] [LinearOrder K] [IsStrictOrderedRing K] [FloorRing K] {G : Type}

/-! ## C53 -/

/-- **C53, pooling.** For every input format (`parse`) and every non-empty list of trajectories whose parsed displacement arrays have
equal shapes, `dtype='identical'` succeeds.  The array of each interval is the concatenation of the arrays of the
trajectories along the atom axis, the numbers of observations are added up, time intervals and volume are those of the first
trajectory. -/
theorem C53_pool {α : Type} (parse : α → PyM (Parsed K)) (pj : Option (List α → PyM (Parsed K))) (xs : List α) (u0 : Parsed K)
    (others : List (Parsed K)) (hp : xs.mapM parse = .ok (u0 :: others)) (m : ℕ) (N T : ℕ → ℕ)
    (hs : SameShape (u0 :: others) m N T) :
    ∃ A, analyzerFrom parse pj (some "identical") (.several xs) = .ok A ∧ A.deltaT = u0.deltaT ∧ A.volume = u0.volume ∧
      A.disp3d.length = m ∧ A.nO.length = m ∧
      (∀ i < m, ∃ p, A.disp3d[i]? = some p ∧ Concat (N i) (T i) ((u0 :: others).filterMap fun u => u.disp3d[i]?) p) ∧
      ∀ i < m, A.nO[i]? = some (((u0 :: others).map fun u => u.nO.getD i 0).sum) := by
  obtain ⟨nO, hn, hnl, hng⟩ := foldNO (m := m) (u0 :: others) (List.replicate u0.nO.length 0)
    (by rw [List.length_replicate]; exact (hs u0 (by simp)).2.1) fun u hu => (hs u hu).2.1
  have hone : ∀ (i : ℕ) (a0 : Arr3 K), u0.disp3d[i]? = some a0 →
      ∀ u ∈ others, ∃ a, u.disp3d[i]? = some a ∧ a.n0 = a0.n0 ∧ a.n1 = a0.n1 := by
    intro i a0 ha0 u hu
    have hi : i < m := by
      rw [← (hs u0 (by simp)).1]
      exact (List.getElem?_eq_some_iff.mp ha0).1
    have hi' : i < u.disp3d.length := by rw [(hs u (by simp [hu])).1]; exact hi
    obtain ⟨e1, e2⟩ := (hs u0 (by simp)).2.2 i a0 ha0
    obtain ⟨f1, f2⟩ := (hs u (by simp [hu])).2.2 i _ (List.getElem?_eq_getElem hi')
    exact ⟨_, List.getElem?_eq_getElem hi', by rw [f1, e1], by rw [f2, e2]⟩
  obtain ⟨disp, hd⟩ := mapM_ok_of (f := fun p : Arr3 K × ℕ => stackOne p.1 others p.2) (l := u0.disp3d.zipIdx) (by
    intro p hp
    obtain ⟨h1, h2⟩ := List.mem_zipIdx' hp
    obtain ⟨b, hb, -⟩ := stackOne_ok (a0 := p.1) (others := others) (i := p.2)
      (hone p.2 p.1 (by rw [List.getElem?_eq_getElem h1, h2]))
    exact ⟨_, hb⟩)
  have hdl : disp.length = m := by
    rw [(mapM_ok_inv hd).1, List.length_zipIdx]; exact (hs u0 (by simp)).1
  refine ⟨⟨u0.deltaT, disp, nO, u0.volume⟩, ?_, rfl, rfl, hdl, hnl, ?_, ?_⟩
  · unfold analyzerFrom
    simp only [if_true, Traj.asList, bind, Except.bind]
    rw [hp]
    simp only [poolIdentical, bind, Except.bind]
    rw [hn]
    simp only [stackTrajectories]
    rw [hd]
  · intro i hi
    have hi0 : i < u0.disp3d.length := by rw [(hs u0 (by simp)).1]; exact hi
    obtain ⟨y, hy, hyi⟩ := (mapM_ok_inv hd).2 i (u0.disp3d[i], i) (by
      rw [List.getElem?_zipIdx, List.getElem?_eq_getElem hi0]; simp)
    have ha0 : u0.disp3d[i]? = some u0.disp3d[i] := List.getElem?_eq_getElem hi0
    obtain ⟨e1, e2⟩ := (hs u0 (by simp)).2.2 i _ ha0
    obtain ⟨blocks, hb, hbl, hbg⟩ := stackOne_ok (hone i _ ha0)
    dsimp only at hy
    rw [hb] at hy
    obtain rfl := Except.ok.inj hy
    refine ⟨_, hyi, ?_⟩
    have hall : ∀ us : List (Parsed K), (∀ u ∈ us, u ∈ u0 :: others) →
        (us.filterMap fun u => u.disp3d[i]?).length = us.length ∧
        ∀ j : ℕ, (us.filterMap fun u => u.disp3d[i]?)[j]? = us[j]?.bind fun u => u.disp3d[i]? := by
      intro us
      induction us with
      | nil => intro _; simp
      | cons u us ih =>
        intro h
        have hu : i < u.disp3d.length := by rw [(hs u (h u (by simp))).1]; exact hi
        have hc : (List.filterMap (fun u => u.disp3d[i]?) (u :: us)) = u.disp3d[i] :: us.filterMap fun u => u.disp3d[i]? := by
          rw [List.filterMap_cons, List.getElem?_eq_getElem hu]
        obtain ⟨i1, i2⟩ := ih fun v hv => h v (by simp [hv])
        refine ⟨by rw [hc, List.length_cons, i1, List.length_cons], fun j => ?_⟩
        rw [hc]
        cases j with
        | zero => simp [List.getElem?_eq_getElem hu]
        | succ j => simpa using i2 j
    obtain ⟨hl1, hl2⟩ := hall (u0 :: others) fun u hu => hu
    constructor
    · rw [hl1, ← e1]; simp [joinBlocks, hbl, mul_comm]
    · exact e2
    · intro j a hj r hr k x
      rw [hl2] at hj
      rw [← e1] at hr ⊢
      rw [joinBlocks_get (b := a) _ hr]
      cases j with
      | zero =>
        simp only [List.getElem?_cons_zero, Option.bind_some] at hj ⊢
        rw [← hj, ha0]
      | succ j =>
        simp only [List.getElem?_cons_succ] at hj ⊢
        cases hu : others[j]? with
        | none => rw [hu] at hj; cases hj
        | some u => rw [hu] at hj; exact hbg j u a hu hj
  · intro i hi
    have := hng i hi
    rw [List.getD_eq_getElem?_getD, List.getElem?_eq_getElem (by omega)] at this
    rw [List.getElem?_eq_getElem (by rw [hnl]; exact hi)]
    simp only [Option.getD_some] at this
    rw [this]
    congr 1
    simp [List.getD_eq_getElem?_getD, List.getElem?_replicate]
    split_ifs <;> simp

/-- Spec-level fact: the MSD of a concatenation of equally shaped arrays is the mean of the MSDs. -/
theorem msd_concat {n t : ℕ} {as : List (Arr3 K)} {p : Arr3 K} (h : Concat n t as p) (hne : as ≠ [])
    (hshape : ∀ a ∈ as, a.n0 = n ∧ a.n1 = t) (A : Finset (Fin 3)) :
    msd A p = (as.map (msd A)).sum / (as.length : K) := by
  have hk : (as.length : K) ≠ 0 := by
    have : as.length ≠ 0 := by simpa using hne
    exact_mod_cast this
  have hsum : (as.map (msd A)).sum = (∑ j ∈ Finset.range as.length, ∑ r ∈ Finset.range n, ∑ k ∈ Finset.range t, ∑ x ∈ A,
      p.get (j * n + r) k x ^ 2) / ((n : K) * (t : K)) := by
    have hm : as.map (msd A) = (List.range as.length).map fun j => (∑ r ∈ Finset.range n, ∑ k ∈ Finset.range t, ∑ x ∈ A,
        p.get (j * n + r) k x ^ 2) / ((n : K) * (t : K)) := by
      apply List.ext_getElem?
      intro j
      rw [List.getElem?_map, List.getElem?_map]
      by_cases hj : j < as.length
      · rw [List.getElem?_range hj, List.getElem?_eq_getElem hj]
        simp only [Option.map_some, Option.some.injEq]
        obtain ⟨h0, h1⟩ := hshape as[j] (List.getElem_mem hj)
        unfold msd
        rw [h0, h1]
        congr 1
        apply Finset.sum_congr rfl
        intro r hr
        apply Finset.sum_congr rfl
        intro k _
        apply Finset.sum_congr rfl
        intro x _
        rw [h.get j as[j] (List.getElem?_eq_getElem hj) r (Finset.mem_range.mp hr) k x]
      · rw [List.getElem?_eq_none (by omega), List.getElem?_eq_none (by simpa using hj)]; rfl
    rw [hm, sum_range_list, Finset.sum_div]
  rw [hsum]
  unfold msd
  rw [h.atoms, h.obs, sum_blocks, Nat.cast_mul, div_div]
  congr 1
  ring

/-- Spec-level fact: entries of the pooled array. -/
theorem mscd_concat {n t : ℕ} {as : List (Arr3 K)} {p : Arr3 K} (h : Concat n t as p)
    (A : Finset (Fin 3)) (q : ℕ → K) :
    mscd A q p = (∑ k ∈ Finset.range t, ∑ x ∈ A, (∑ j ∈ Finset.range as.length, ∑ r ∈ Finset.range n,
      q (j * n + r) * p.get (j * n + r) k x) ^ 2) / (t : K) := by
  unfold mscd
  rw [h.atoms, h.obs]
  simp only [sum_blocks]

/-- Slicing two lists with equal images. -/
theorem stride_images {α β γ : Type} {sub : ℤ} {l ds : List α} {l' ds' : List β} {f : α → γ} {f' : β → γ}
    (h : pyStride sub l = .ok ds) (h' : pyStride sub l' = .ok ds') (hm : l.map f = l'.map f') : ds.map f = ds'.map f' := by
  have e1 : pyStride sub (l.map f) = .ok (ds.map f) := by rw [pyStride_map, h]; rfl
  have e2 : pyStride sub (l'.map f') = .ok (ds'.map f') := by rw [pyStride_map, h']; rfl
  rw [hm, e2] at e1
  exact (Except.ok.inj e1).symm

/-- **C53, MSD of the pool.** Wherever every trajectory alone has an MSD, the MSD of the pool is the mean of these MSDs. -/
theorem C53_msd {α : Type} (parse : α → PyM (Parsed K)) (pj : Option (List α → PyM (Parsed K))) (xs : List α) (u0 : Parsed K)
    (others : List (Parsed K)) (hp : xs.mapM parse = .ok (u0 :: others)) (m : ℕ) (N T : ℕ → ℕ)
    (hs : SameShape (u0 :: others) m N T) (sq : K → K) (o : Oracle K G) (opt : BootOpts K) (hblock : opt.block = false)
    (sub : ℤ) (d : String) (A : Base K) (hA : analyzerFrom parse pj (some "identical") (.several xs) = .ok A)
    (b : Boot K) (g g' : G) (h : msdBootstrap sq o opt g A.deltaT A.disp3d A.nO sub d = .ok (b, g')) (bs : List (Boot K))
    (hbs : List.Forall₂ (fun (u : Parsed K) b' => ∃ g g', msdBootstrap sq o opt g u.deltaT u.disp3d u.nO sub d = .ok (b', g'))
      (u0 :: others) bs) :
    ∀ i : ℕ, (∀ b' ∈ bs, i < b'.n.length) →
      b.n[i]? = some ((bs.map fun b' => b'.n.getD i 0).sum / (bs.length : K)) := by
  intro i hi
  obtain ⟨A', hA', -, -, hlen, -, hcat, -⟩ := C53_pool parse pj xs u0 others hp m N T hs
  rw [hA] at hA'
  obtain rfl := Except.ok.inj hA'
  obtain ⟨ds, dts, h1, -, -, e1, e2⟩ := C28_msd sq o opt hblock g g' A.deltaT A.disp3d A.nO sub d b h
  obtain ⟨idx, hidx, hds⟩ := pyStride_index h1
  rw [hlen] at hidx
  -- every single trajectory has an array for this interval
  have hsingle : ∀ u b', u ∈ u0 :: others → (∃ g g', msdBootstrap sq o opt g u.deltaT u.disp3d u.nO sub d = .ok (b', g')) →
      i < b'.n.length → ∃ j a, idx[i]? = some j ∧ j < m ∧ u.disp3d[j]? = some a ∧ 2 ≤ a.n0 * a.n1 ∧
        b'.n[i]? = some (msd (axesOf d) a) := by
    rintro u b' hu ⟨g1, g2, hb⟩ hib
    obtain ⟨ds', dts', f1, -, -, f2, -⟩ := C28_msd sq o opt hblock g1 g2 u.deltaT u.disp3d u.nO sub d b' hb
    obtain ⟨idx', hidx', hds'⟩ := pyStride_index f1
    rw [(hs u hu).1, hidx] at hidx'
    obtain rfl := Except.ok.inj hidx'
    obtain ⟨a, a1, a2, a3, -⟩ := f2 i hib
    rw [hds'] at a1
    cases hj : idx[i]? with
    | none => rw [hj] at a1; cases a1
    | some j =>
      rw [hj] at a1
      simp only [Option.bind_some] at a1
      refine ⟨j, a, rfl, ?_, a1, a2, a3⟩
      have := (List.getElem?_eq_some_iff.mp a1).1
      rw [(hs u hu).1] at this
      exact this
  cases hbs with
  | @cons _ b0 _ bs' hb0 hrest =>
  obtain ⟨j, a0, hj, hjm, ha0, ha02, -⟩ := hsingle u0 b0 (by simp) hb0 (hi b0 (by simp))
  obtain ⟨p, hpj, hcc⟩ := hcat j hjm
  have hdi : ds[i]? = some p := by rw [hds, hj]; exact hpj
  have hall : ∀ us bs', List.Forall₂ (fun (u : Parsed K) b' => ∃ g g', msdBootstrap sq o opt g u.deltaT u.disp3d u.nO sub d = .ok (b', g'))
      us bs' → (∀ u ∈ us, u ∈ u0 :: others) → (∀ b' ∈ bs', i < b'.n.length) →
      (us.filterMap fun u => u.disp3d[j]?).map (msd (axesOf d)) = bs'.map fun b' => b'.n.getD i 0 := by
    intro us bs' hf
    induction hf with
    | nil => intro _ _; rfl
    | @cons u b' us bs' hb hf ih =>
      intro hu hb'
      obtain ⟨j', a, f1, f2, f3, f4, f5⟩ := hsingle u b' (hu u (by simp)) hb (hb' b' (by simp))
      obtain rfl : j = j' := Option.some.inj (hj.symm.trans f1)
      rw [List.filterMap_cons, f3, List.map_cons, List.map_cons, ih (fun v hv => hu v (by simp [hv])) fun c hc => hb' c (by simp [hc])]
      rw [List.getD_eq_getElem?_getD, f5]; rfl
  have hmap := hall (u0 :: others) (b0 :: bs') (.cons hb0 hrest) (fun u hu => hu) hi
  have hne : ((u0 :: others).filterMap fun u => u.disp3d[j]?) ≠ [] := by
    rw [List.filterMap_cons, ha0]; simp
  have hshape : ∀ a ∈ ((u0 :: others).filterMap fun u => u.disp3d[j]?), a.n0 = N j ∧ a.n1 = T j := by
    intro a ha
    obtain ⟨u, hu, hua⟩ := List.mem_filterMap.mp ha
    exact (hs u hu).2.2 j a hua
  have hmsd := msd_concat hcc hne hshape (axesOf d)
  have hlen2 : ((u0 :: others).filterMap fun u => u.disp3d[j]?).length = (b0 :: bs').length := by
    have := congrArg List.length hmap
    simpa using this
  rw [hmap, hlen2] at hmsd
  have hib : i < b.n.length := by
    by_contra hc
    have := e2 i (by omega) p hdi
    rw [hcc.atoms, hcc.obs, hlen2] at this
    obtain ⟨e3, e4⟩ := (hs u0 (by simp)).2.2 j a0 ha0
    rw [e3, e4] at ha02
    have : 1 * (N j * T j) ≤ (b0 :: bs').length * (N j * T j) := Nat.mul_le_mul_right _ (by simp)
    rw [mul_assoc] at *
    omega
  obtain ⟨p', q1, -, q3, -⟩ := e1 i hib
  obtain rfl : p = p' := Option.some.inj (hdi.symm.trans q1)
  rw [q3, hmsd]

theorem foldlM_addNO_ok {us : List (Parsed K)} : ∀ {acc : List K},
    (∃ r, us.foldlM (fun acc u => addNO acc u.nO) acc = Except.ok r) ↔ ∀ u ∈ us, u.nO.length = acc.length ∨ u.nO.length = 1 := by
  induction us with
  | nil => intro acc; exact ⟨fun _ => by simp, fun _ => ⟨acc, rfl⟩⟩
  | cons u us ih =>
    intro acc
    rw [List.foldlM_cons]
    by_cases h1 : u.nO.length = acc.length
    · rw [addNO_same h1]
      simp only [bind, Except.bind]
      rw [ih]
      simp [List.length_zipWith, h1]
    · by_cases h2 : u.nO.length = 1
      · obtain ⟨x, hx⟩ := List.length_eq_one_iff.1 h2
        have : addNO acc u.nO = .ok (acc.map fun y => y + x) := by unfold addNO; rw [if_neg h1, hx]
        rw [this]
        simp only [bind, Except.bind]
        rw [ih]
        simp [h2]
      · have : addNO acc u.nO = .error .valueError := by
          unfold addNO
          rw [if_neg h1]
          match h : u.nO with
          | [] => rfl
          | [x] => rw [h] at h2; simp at h2
          | x :: y :: l => rfl
        rw [this]
        simp only [bind, Except.bind]
        constructor
        · rintro ⟨r, hr⟩; cases hr
        · intro h
          rcases h u (by simp) with h | h
          · exact absurd h h1
          · exact absurd h h2

/-- **C53, rejection, what holds.** A pool is made exactly when every further trajectory has an array for every interval of the first
trajectory, with the numbers of atoms and observations of the first trajectory *or one*, and as many entries in `n_o` as the
first *or one*; otherwise an exception is raised.  (Missing for the full property: "or one", see `C53_violated`.) -/
theorem C53_rejects_partial (u0 : Parsed K) (others : List (Parsed K)) :
    (∃ A, poolIdentical (u0 :: others) = .ok A) ↔
      ∀ u ∈ others, (u.nO.length = u0.nO.length ∨ u.nO.length = 1) ∧ ∀ (i : ℕ) (a0 : Arr3 K), u0.disp3d[i]? = some a0 →
        ∃ a, u.disp3d[i]? = some a ∧ (a.n0 = a0.n0 ∨ a.n0 = 1) ∧ (a.n1 = a0.n1 ∨ a.n1 = 1) := by
  constructor
  · rintro ⟨A, h⟩ u hu
    simp only [poolIdentical, bind, Except.bind] at h
    cases hn : (u0 :: others).foldlM (fun acc u => addNO acc u.nO) (List.replicate u0.nO.length 0) with
    | error e => rw [hn] at h; cases h
    | ok nO =>
      rw [hn] at h
      refine ⟨by simpa using foldlM_addNO_ok.1 ⟨nO, hn⟩ u (by simp [hu]), fun i a0 ha0 => ?_⟩
      cases hd : stackTrajectories u0 others with
      | error e => rw [hd] at h; cases h
      | ok disp =>
        obtain ⟨y, hy, -⟩ := (mapM_ok_inv hd).2 i (a0, i) (by rw [List.getElem?_zipIdx, ha0]; simp)
        exact stackOne_inv hy u hu
  · intro h
    obtain ⟨nO, hn⟩ := (foldlM_addNO_ok (us := u0 :: others) (acc := List.replicate u0.nO.length (0 : K))).2 (by
      intro u hu
      rw [List.length_replicate]
      rcases List.mem_cons.1 hu with rfl | hu
      · exact Or.inl rfl
      · exact (h u hu).1)
    obtain ⟨disp, hd⟩ : ∃ r, stackTrajectories u0 others = .ok r := by
      unfold stackTrajectories
      apply mapM_ok_of
      rintro ⟨a0, i⟩ hp
      rw [List.mk_mem_zipIdx_iff_getElem?] at hp
      obtain ⟨blocks, hb⟩ : ∃ r, others.mapM (fun u => do
          let a ← pyGet u.disp3d i
          assignSlot a0.n0 a0.n1 a) = Except.ok r := by
        apply mapM_ok_of
        intro u hu
        obtain ⟨a, ha, h0, h1⟩ := (h u hu).2 i a0 hp
        simp only [pyGet, ha, bind, Except.bind]
        unfold assignSlot
        rw [if_pos ⟨h0, h1⟩]
        exact ⟨_, rfl⟩
      refine ⟨joinBlocks a0.n0 a0.n1 (a0 :: blocks), ?_⟩
      simp only [stackOne]
      rw [hb]
      rfl
    refine ⟨⟨u0.deltaT, disp, nO, u0.volume⟩, ?_⟩
    simp only [poolIdentical, bind, Except.bind]
    rw [hn, hd]

/-- An array of three atoms and five observations. -/
def exPoolArr : Arr3 ℚ := { n0 := 3, n1 := 5, get := fun i j _ => ((i : ℚ) + 1) * ((j : ℚ) + 1) ^ 2 }

/-- A parsed trajectory with the given arrays and numbers of samples. -/
def exParsed (disp3d : List (Arr3 ℚ)) (nO : List ℚ) : Parsed ℚ where
  warned := false
  timeStep := .int 1
  stepSkip := .int 1
  indices := [0, 1, 2]
  drift := []
  coordsCheck := []
  dc := exPoolArr
  intervals := [1, 2]
  deltaT := [1, 2]
  deltaInt := true
  disp3d := disp3d
  nO := nO
  volume := some 1000

/-- A second trajectory with only one interval is refused, one with more intervals is accepted. -/
example : (∀ A, poolIdentical [exParsed [exPoolArr, exPoolArr] [6, 3], exParsed [exPoolArr] [6]] ≠ .ok A) ∧
    ∃ A, poolIdentical [exParsed [exPoolArr] [6], exParsed [exPoolArr, exPoolArr] [6]] = .ok A := by
  constructor
  · intro A hA
    obtain ⟨a, ha, -⟩ := ((C53_rejects_partial _ _).1 ⟨A, hA⟩ (exParsed [exPoolArr] [6]) (by simp)).2 1 exPoolArr rfl
    simp [exParsed] at ha
  · refine (C53_rejects_partial _ _).2 ?_
    intro u hu
    obtain rfl := List.mem_singleton.1 hu
    refine ⟨Or.inl rfl, fun i a0 h => ?_⟩
    match i, h with
    | 0, h => exact ⟨a0, h, Or.inl rfl, Or.inl rfl⟩
    | i + 1, h => simp [exParsed] at h

/-- One trajectory with two mobile atoms and one with a single mobile atom (both with `max_dt` = 2 frames). -/
def oneLi : List (Frame ℚ) := (List.range 5).map fun j =>
  { symbols := ["Li", "O"], frac := [![3 * (j : ℚ) / 50, 0, 0], ![1 / 2, 1 / 2, 1 / 2]], latt := exBox, volume := 1000 }

/-- Default parameters with `max_dt=12`, two intervals. -/
def exShort : Params ℚ := { exParams with maxDt := some 12, nSteps := 2 }

/-- **C53, rejection violated.** A trajectory with two mobile atoms and one with a single mobile atom (different numbers of
observations) are pooled without complaint: numpy repeats the single atom to fill the slot, so that its displacements count
twice in the MSD, while `n_o` counts them once. -/
theorem C53_violated :
    (fromAse exNum exShort exSelect 1 (some "identical") (.several [exTraj, oneLi])).toOption.map
      (fun A => (A.disp3d.map fun a => (a.n0, a.n1, a.get 2 1 0, a.get 3 1 0), A.nO)) =
        some ([(4, 5, 3 / 5, 3 / 5), (4, 4, 6 / 5, 6 / 5)], [6, 3]) ∧
    (fromAse exNum exShort exSelect 1 none (.one exTraj)).toOption.map (fun A => (A.disp3d.map fun a => (a.n0, a.n1), A.nO)) =
        some ([(2, 5), (2, 4)], [4, 2]) ∧
    (fromAse exNum exShort exSelect 1 none (.one oneLi)).toOption.map (fun A => (A.disp3d.map fun a => (a.n0, a.n1), A.nO)) =
        some ([(1, 5), (1, 4)], [2, 1]) := by
  refine ⟨?_, ?_, ?_⟩
  · decide +kernel
  · decide +kernel
  · decide +kernel

/-- The hypotheses of `C53_pool` and `C53_msd` hold for two different trajectories of the example system. -/
example : ∃ us, [exTraj, exTraj.reverse].mapM (aseParser exNum exShort exSelect 1) = .ok us ∧
    SameShape us 2 (fun _ => 2) (fun i => if i = 0 then 5 else 4) := by
  have h1 : ([exTraj, exTraj.reverse].mapM (aseParser exNum exShort exSelect 1)).toOption.map (fun us =>
      us.map fun u => (u.nO.length, u.disp3d.map fun a => (a.n0, a.n1))) = some [(2, [(2, 5), (2, 4)]), (2, [(2, 5), (2, 4)])] := by
    decide +kernel
  cases h : [exTraj, exTraj.reverse].mapM (aseParser exNum exShort exSelect 1) with
  | error e => rw [h] at h1; cases h1
  | ok us =>
    rw [h] at h1
    have h2 : (us.map fun u => (u.nO.length, u.disp3d.map fun a => (a.n0, a.n1))) = [(2, [(2, 5), (2, 4)]), (2, [(2, 5), (2, 4)])] :=
      Option.some.inj h1
    refine ⟨us, rfl, fun u hu => ?_⟩
    have h3 : (u.nO.length, u.disp3d.map fun a => (a.n0, a.n1)) = (2, [(2, 5), (2, 4)]) := by
      have := List.mem_map_of_mem (f := fun u : Parsed ℚ => (u.nO.length, u.disp3d.map fun a => (a.n0, a.n1))) hu
      rw [h2] at this
      simpa using this
    have h4 : u.disp3d.map (fun a => (a.n0, a.n1)) = [(2, 5), (2, 4)] := congrArg Prod.snd h3
    refine ⟨by simpa using congrArg List.length h4, congrArg Prod.fst h3, fun i a ha => ?_⟩
    have h5 := congrArg (fun l => l[i]?) h4
    simp only [List.getElem?_map, ha, Option.map_some] at h5
    match i with
    | 0 => simpa using Option.some.inj h5
    | 1 => simpa using Option.some.inj h5
    | i + 2 => simp at h5

/-! ## C54 -/

theorem getDisps_lengths {fl : K → K} {giga : K} {itemsize : ℕ} {ts ss : PyNum K} {idx : List ℤ} {sampling : String} {lim : K}
    {iv : List ℤ} {dc : Arr3 K} {o : DispsOut K} (h : getDisps fl giga itemsize ts ss idx sampling lim iv dc = .ok o) :
    o.nO.length = o.disp3d.length := by
  unfold getDisps at h
  cases hc : checkRows iv idx dc.n0 with
  | error e => rw [hc] at h; cases h
  | ok rows =>
  rw [hc] at h
  simp only [bind, Except.bind] at h
  split at h
  · cases h
  cases hm : iv.zipIdx.mapM (oneInterval fl idx sampling (iv.getLastD 0) dc) with
  | error e => rw [hm] at h; cases h
  | ok r =>
    rw [hm] at h
    obtain rfl := Except.ok.inj h
    simp

theorem buildParser_lengths {E : Num K} {P : Params K} {S : Select K} {st : Frame K} {coords : List (List (V3 K))}
    {latt : List (M3 K)} {r : Parsed K} (h : buildParser E P S st coords latt = .ok r) : r.nO.length = r.disp3d.length := by
  obtain ⟨coords', sel, w, disp, r0, -, -, h3, rfl⟩ := buildParser_inv h
  unfold parserInit at h3
  cases h4 : correctDriftSeq sel.drift disp with
  | error e => rw [h4] at h3; cases h3
  | ok dc =>
  rw [h4] at h3
  simp only [bind, Except.bind] at h3
  cases h5 : initTimeIntervals E.fl E.geo dc.n1 P.timeStep P.stepSkip P.minDt P.maxDt P.nSteps P.spacing with
  | error e => rw [h5] at h3; cases h3
  | ok ti =>
  rw [h5] at h3
  simp only at h3
  cases h6 : getDisps E.fl (E.fl (1 / 10 ^ 9)) P.itemsize P.timeStep P.stepSkip sel.indices P.sampling P.memoryLimit ti dc with
  | error e => rw [h6] at h3; cases h3
  | ok o =>
    rw [h6] at h3
    obtain rfl := Except.ok.inj h3
    exact getDisps_lengths h6

/-- The hypothesis `u.nO.length = u.disp3d.length` of the theorems on copies holds for all parser results. -/
theorem parser_lengths (E : Num K) (P : Params K) (S : Select K) (subAtoms subTraj : ℤ) (u : Parsed K) :
    (∀ fr, aseParser E P S subTraj fr = .ok u → u.nO.length = u.disp3d.length) ∧
    (∀ fr, pymatgenParser E P S subTraj fr = .ok u → u.nO.length = u.disp3d.length) ∧
    (∀ types fr, mdaParser E P S subAtoms subTraj types fr = .ok u → u.nO.length = u.disp3d.length) := by
  refine ⟨?_, ?_, ?_⟩
  · intro fr h
    unfold aseParser at h
    cases h1 : pyStride subTraj fr with
    | error e => rw [h1] at h; cases h
    | ok fr' =>
    rw [h1] at h
    simp only [bind, Except.bind] at h
    cases h2 : structureCoordsLatt fr' with
    | error e => rw [h2] at h; cases h
    | ok x => rw [h2] at h; exact buildParser_lengths h
  · intro fr h
    unfold pymatgenParser at h
    cases h1 : pyStride subTraj fr with
    | error e => rw [h1] at h; cases h
    | ok fr' =>
    rw [h1] at h
    simp only [bind, Except.bind] at h
    cases h2 : structureCoordsLatt fr' with
    | error e => rw [h2] at h; cases h
    | ok x =>
    rw [h2] at h
    dsimp only at h
    cases h3 : buildParser E { P with stepSkip := P.stepSkip.mul E.fl (.int subTraj) } S x.1 x.2.1 x.2.2 with
    | error e => rw [h3] at h; cases h
    | ok r =>
      rw [h3] at h
      dsimp only at h
      by_cases hd : r.deltaInt = true
      · rw [if_pos hd] at h; cases h
      · rw [if_neg hd] at h
        obtain rfl := Except.ok.inj h
        have := buildParser_lengths h3
        exact this
  · intro types fr h
    unfold mdaParser at h
    dsimp only at h
    split_ifs at h
    cases h1 : pyStride subTraj fr with
    | error e => rw [h1] at h; cases h
    | ok fr' =>
    rw [h1] at h
    simp only [bind, Except.bind] at h
    cases h0 : fr'.mapM (mdaFrame types subAtoms) with
    | error e => rw [h0] at h; cases h
    | ok fr'' =>
    rw [h0] at h
    dsimp only at h
    cases h2 : structureCoordsLatt fr'' with
    | error e => rw [h2] at h; cases h
    | ok x => rw [h2] at h; exact buildParser_lengths h

theorem replicate_mapM {α β : Type} (f : α → PyM β) {x : α} {y : β} (h : f x = .ok y) (k : ℕ) :
    (List.replicate k x).mapM f = .ok (List.replicate k y) := by
  induction k with
  | zero => rfl
  | succ k ih => rw [List.replicate_succ, List.mapM_cons, h, ih]; rfl

theorem forall₂_replicate {α β : Type} {R : α → β → Prop} {x : α} {y : β} (k : ℕ) (h : R x y) :
    List.Forall₂ R (List.replicate k x) (List.replicate k y) := by
  induction k with
  | zero => exact .nil
  | succ k ih => exact .cons h ih

/-- The pool of `k + 1` copies: every array is the `k + 1`-fold concatenation of the array of the single trajectory. -/
theorem pool_copies {α : Type} (parse : α → PyM (Parsed K)) (pj : Option (List α → PyM (Parsed K))) (x : α) (u : Parsed K)
    (hx : parse x = .ok u) (hl : u.nO.length = u.disp3d.length) (k : ℕ) :
    ∃ A, analyzerFrom parse pj (some "identical") (.several (List.replicate (k + 1) x)) = .ok A ∧ A.deltaT = u.deltaT ∧
      A.disp3d.length = u.disp3d.length ∧ A.nO.length = u.nO.length ∧
      (∀ (i : ℕ) (a : Arr3 K), u.disp3d[i]? = some a → ∃ p, A.disp3d[i]? = some p ∧ p.n0 = (k + 1) * a.n0 ∧ p.n1 = a.n1 ∧
        ∀ j < k + 1, ∀ r < a.n0, ∀ t x, p.get (j * a.n0 + r) t x = a.get r t x) ∧
      ∀ (i : ℕ) (n : K), u.nO[i]? = some n → A.nO[i]? = some ((k + 1 : ℕ) * n) := by
  have hs : SameShape (u :: List.replicate k u) u.disp3d.length (fun i => (u.disp3d.map Arr3.n0).getD i 0)
      (fun i => (u.disp3d.map Arr3.n1).getD i 0) := by
    intro v hv
    obtain rfl : v = u := by
      rcases List.mem_cons.mp hv with h | h
      · exact h
      · exact List.eq_of_mem_replicate h
    refine ⟨rfl, hl, fun i a ha => ?_⟩
    simp [List.getD_eq_getElem?_getD, List.getElem?_map, ha]
  obtain ⟨A, h1, h2, -, h3, h4, h5, h6⟩ := C53_pool parse pj (List.replicate (k + 1) x) u (List.replicate k u)
    (by rw [replicate_mapM parse hx]; rfl) _ _ _ hs
  refine ⟨A, h1, h2, h3, by rw [h4, hl], ?_, ?_⟩
  · intro i a ha
    have hi : i < u.disp3d.length := (List.getElem?_eq_some_iff.mp ha).1
    obtain ⟨p, hp, hc⟩ := h5 i hi
    have hn0 : (u.disp3d.map Arr3.n0).getD i 0 = a.n0 := by simp [List.getD_eq_getElem?_getD, List.getElem?_map, ha]
    have hn1 : (u.disp3d.map Arr3.n1).getD i 0 = a.n1 := by simp [List.getD_eq_getElem?_getD, List.getElem?_map, ha]
    have hfm : ((u :: List.replicate k u).filterMap fun u => u.disp3d[i]?) = List.replicate (k + 1) a := by
      have : (u :: List.replicate k u) = List.replicate (k + 1) u := rfl
      rw [this]
      generalize k + 1 = n
      induction n with
      | zero => rfl
      | succ n ih => rw [List.replicate_succ, List.filterMap_cons, ha, ih]; rfl
    rw [hn0, hn1, hfm] at hc
    refine ⟨p, hp, by rw [hc.atoms, List.length_replicate], hc.obs, fun j hj r hr t x => ?_⟩
    exact hc.get j a (by rw [List.getElem?_replicate, if_pos hj]) r hr t x
  · intro i n hn
    have hi : i < u.disp3d.length := by rw [← hl]; exact (List.getElem?_eq_some_iff.mp hn).1
    rw [h6 i hi]
    have : (u :: List.replicate k u) = List.replicate (k + 1) u := rfl
    rw [this, List.map_replicate, List.sum_replicate, List.getD_eq_getElem?_getD, hn, nsmul_eq_mul]
    rfl

theorem copies_map {u : Parsed K} {A : Base K} {k : ℕ} {f : Arr3 K → K} {φ : K → K} (hlen : A.disp3d.length = u.disp3d.length)
    (h : ∀ (i : ℕ) (a : Arr3 K), u.disp3d[i]? = some a → ∃ p, A.disp3d[i]? = some p ∧ f p = φ (f a)) :
    A.disp3d.map f = u.disp3d.map fun a => φ (f a) := by
  apply List.ext_getElem?
  intro i
  rw [List.getElem?_map, List.getElem?_map]
  cases ha : u.disp3d[i]? with
  | none =>
    have : A.disp3d[i]? = none := by
      rw [List.getElem?_eq_none_iff] at ha ⊢
      omega
    rw [this]; rfl
  | some a =>
    obtain ⟨p, hp, hf⟩ := h i a ha
    rw [hp]
    simp [hf]

/-- **C54, what holds.** The MSD of any number of copies of a trajectory is the MSD of one copy.  (The corresponding statements
for the MSTD per atom and the MSCD per volume are false, see below.) -/
theorem C54_msd_partial {α : Type} (parse : α → PyM (Parsed K)) (pj : Option (List α → PyM (Parsed K))) (x : α) (u : Parsed K)
    (hx : parse x = .ok u) (hl : u.nO.length = u.disp3d.length) (k : ℕ) (A : Base K)
    (hA : analyzerFrom parse pj (some "identical") (.several (List.replicate (k + 1) x)) = .ok A)
    (sq : K → K) (o : Oracle K G) (opt : BootOpts K) (hblock : opt.block = false) (sub : ℤ) (d : String) (b b' : Boot K)
    (g₁ g₂ g₃ g₄ : G) (h : msdBootstrap sq o opt g₁ u.deltaT u.disp3d u.nO sub d = .ok (b, g₂))
    (h' : msdBootstrap sq o opt g₃ A.deltaT A.disp3d A.nO sub d = .ok (b', g₄)) :
    ∀ i < b.n.length, b'.n[i]? = b.n[i]? := by
  intro i hi
  have hs : SameShape (u :: List.replicate k u) u.disp3d.length (fun i => (u.disp3d.map Arr3.n0).getD i 0)
      (fun i => (u.disp3d.map Arr3.n1).getD i 0) := by
    intro v hv
    obtain rfl : v = u := by
      rcases List.mem_cons.mp hv with h | h
      · exact h
      · exact List.eq_of_mem_replicate h
    refine ⟨rfl, hl, fun i a ha => ?_⟩
    simp [List.getD_eq_getElem?_getD, List.getElem?_map, ha]
  have hm := C53_msd parse pj (List.replicate (k + 1) x) u (List.replicate k u) (by rw [replicate_mapM parse hx]; rfl) _ _ _ hs sq o opt
    hblock sub d A hA b' g₃ g₄ h' (List.replicate (k + 1) b) (by
      exact forall₂_replicate (k + 1) ⟨g₁, g₂, h⟩) i
      (fun c hc => by rw [List.eq_of_mem_replicate hc]; exact hi)
  rw [hm, List.map_replicate, List.sum_replicate, List.length_replicate, List.getElem?_eq_getElem hi, List.getD_eq_getElem?_getD,
    List.getElem?_eq_getElem hi, nsmul_eq_mul]
  have : ((k + 1 : ℕ) : K) ≠ 0 := by exact_mod_cast Nat.succ_ne_zero k
  rw [mul_div_cancel_left₀ _ this]
  rfl

/-- Two copies of the example trajectory: the pool is made and both analyses succeed (values in `C54_violated`). -/
example : ∃ u A b b', aseParser exNum exShort exSelect 1 exTraj = .ok u ∧
    analyzerFrom (aseParser exNum exShort exSelect 1) none (some "identical") (.several (List.replicate 2 exTraj)) = .ok A ∧
    msdBootstrap id (exOracle ℚ) (exOpts ℚ) () u.deltaT u.disp3d u.nO 1 "xyz" = .ok (b, ()) ∧
    msdBootstrap id (exOracle ℚ) (exOpts ℚ) () A.deltaT A.disp3d A.nO 1 "xyz" = .ok (b', ()) ∧
    b.n.length = 2 ∧ ∀ i < b.n.length, b'.n[i]? = b.n[i]? := by
  obtain ⟨u, hu⟩ := ok_of_isSome (x := aseParser exNum exShort exSelect 1 exTraj) (by decide +kernel)
  obtain ⟨A, hA⟩ := ok_of_isSome (x := analyzerFrom (aseParser exNum exShort exSelect 1) none (some "identical")
    (.several (List.replicate 2 exTraj))) (by decide +kernel)
  have h1 : ((aseParser exNum exShort exSelect 1 exTraj).bind fun u =>
      msdBootstrap id (exOracle ℚ) (exOpts ℚ) () u.deltaT u.disp3d u.nO 1 "xyz").toOption.map (fun r => r.1.n.length) = some 2 := by
    decide +kernel
  have h2 : ((analyzerFrom (aseParser exNum exShort exSelect 1) none (some "identical") (.several (List.replicate 2 exTraj))).bind
      fun A => msdBootstrap id (exOracle ℚ) (exOpts ℚ) () A.deltaT A.disp3d A.nO 1 "xyz").toOption.isSome = true := by
    decide +kernel
  rw [hu] at h1
  rw [hA] at h2
  simp only [Except.bind] at h1 h2
  obtain ⟨⟨b', ⟨⟩⟩, hb'⟩ := ok_of_isSome h2
  cases hb : msdBootstrap id (exOracle ℚ) (exOpts ℚ) () u.deltaT u.disp3d u.nO 1 "xyz" with
  | error e => rw [hb] at h1; cases h1
  | ok r =>
    obtain ⟨b, ⟨⟩⟩ := r
    rw [hb] at h1
    exact ⟨u, A, b, b', hu, hA, hb, hb', Option.some.inj h1,
      C54_msd_partial _ none exTraj u hu ((parser_lengths exNum exShort exSelect 1 1 u).1 _ hu) 1 A hA id (exOracle ℚ) (exOpts ℚ) rfl 1 "xyz" b b' () () () () hb hb'⟩

/-- **C54, violated for the MSTD.** The MSTD of `k + 1` copies is `(k + 1)²` times the MSTD of one copy, in every interval, for every
trajectory.  There are `k + 1` times as many atoms, so the MSTD per atom and with it the jump diffusion coefficient come out
`k + 1` times too large. -/
theorem C54_mstd_violated {α : Type} (parse : α → PyM (Parsed K)) (pj : Option (List α → PyM (Parsed K))) (x : α) (u : Parsed K)
    (hx : parse x = .ok u) (hl : u.nO.length = u.disp3d.length) (h2 : ∀ a ∈ u.disp3d, 2 ≤ a.n1) (k : ℕ) (A : Base K)
    (hA : analyzerFrom parse pj (some "identical") (.several (List.replicate (k + 1) x)) = .ok A)
    (sq : K → K) (o : Oracle K G) (opt : BootOpts K) (hblock : opt.block = false) (sub : ℤ) (d : String) (b b' : Boot K)
    (g₁ g₂ g₃ g₄ : G) (h : mstdBootstrap sq o opt g₁ u.deltaT u.disp3d u.nO sub d = .ok (b, g₂))
    (h' : mstdBootstrap sq o opt g₃ A.deltaT A.disp3d A.nO sub d = .ok (b', g₄)) :
    b'.n = b.n.map fun m => ((k + 1 : ℕ) : K) ^ 2 * m := by
  obtain ⟨A', hA', -, hlen, -, hget, -⟩ := pool_copies parse pj x u hx hl k
  rw [hA] at hA'
  obtain rfl := Except.ok.inj hA'
  have hmap : A.disp3d.map (mstd (axesOf d)) = u.disp3d.map fun a => ((k + 1 : ℕ) : K) ^ 2 * mstd (axesOf d) a := by
    refine copies_map (k := k) (φ := fun m => ((k + 1 : ℕ) : K) ^ 2 * m) hlen fun i a ha => ?_
    obtain ⟨p, hp, e0, e1, e2⟩ := hget i a ha
    refine ⟨p, hp, ?_⟩
    unfold mstd
    rw [e0, e1, ← mul_div_assoc, Finset.mul_sum]
    congr 1
    apply Finset.sum_congr rfl
    intro t _
    rw [Finset.mul_sum]
    apply Finset.sum_congr rfl
    intro y _
    rw [sum_blocks]
    have : ∀ j ∈ Finset.range (k + 1), ∑ r ∈ Finset.range a.n0, p.get (j * a.n0 + r) t y = ∑ r ∈ Finset.range a.n0, a.get r t y := by
      intro j hj
      apply Finset.sum_congr rfl
      intro r hr
      exact e2 j (Finset.mem_range.mp hj) r (Finset.mem_range.mp hr) t y
    rw [Finset.sum_congr rfl this, Finset.sum_const, Finset.card_range, nsmul_eq_mul, mul_pow]
  have h2A : ∀ p ∈ A.disp3d, 2 ≤ p.n1 := by
    intro p hp
    obtain ⟨i, hi⟩ := List.mem_iff_getElem?.mp hp
    have hi' : i < u.disp3d.length := by rw [← hlen]; exact (List.getElem?_eq_some_iff.mp hi).1
    obtain ⟨p', hp', -, e1, -⟩ := hget i _ (List.getElem?_eq_getElem hi')
    obtain rfl : p = p' := Option.some.inj (hi.symm.trans hp')
    rw [e1]
    exact h2 _ (List.getElem_mem hi')
  obtain ⟨ds, dts, f1, -, f3, -⟩ := C29_mstd sq o opt hblock g₁ g₂ u.deltaT u.disp3d u.nO sub d b (first_half h2) h
  obtain ⟨ds', dts', f1', -, f3', -⟩ := C29_mstd sq o opt hblock g₃ g₄ A.deltaT A.disp3d A.nO sub d b' (first_half h2A) h'
  have him := stride_images f1' f1 hmap
  have hdl : ds'.length = ds.length := by simpa using congrArg List.length him
  rw [f3, f3', hdl, List.map_map, List.map_take, List.map_take, him]
  rfl

/-- **C54, violated for the MSCD.** The same factor `(k + 1)²` for the MSCD with a scalar charge; the volume stays that of one copy, so
that the conductivity comes out `(k + 1)²` times too large. -/
theorem C54_mscd_violated {α : Type} (parse : α → PyM (Parsed K)) (pj : Option (List α → PyM (Parsed K))) (x : α) (u : Parsed K)
    (hx : parse x = .ok u) (hl : u.nO.length = u.disp3d.length) (h2 : ∀ a ∈ u.disp3d, 2 ≤ a.n1) (N : ℕ)
    (hN : ∀ a ∈ u.disp3d, a.n0 = N) (k : ℕ) (A : Base K)
    (hA : analyzerFrom parse pj (some "identical") (.several (List.replicate (k + 1) x)) = .ok A)
    (sq : K → K) (o : Oracle K G) (opt : BootOpts K) (hblock : opt.block = false) (sub : ℤ) (d : String) (q : K) (b b' : Boot K)
    (g₁ g₂ g₃ g₄ : G) (h : mscdBootstrap sq o opt g₁ u.deltaT u.disp3d (.scalar q) u.nO sub d = .ok (b, g₂))
    (h' : mscdBootstrap sq o opt g₃ A.deltaT A.disp3d (.scalar q) A.nO sub d = .ok (b', g₄)) :
    A.volume = u.volume ∧ b'.n = b.n.map fun m => ((k + 1 : ℕ) : K) ^ 2 * m := by
  obtain ⟨A', hA', -, hlen, -, hget, -⟩ := pool_copies parse pj x u hx hl k
  rw [hA] at hA'
  obtain rfl := Except.ok.inj hA'
  refine ⟨?_, ?_⟩
  · have hs : SameShape (u :: List.replicate k u) u.disp3d.length (fun i => (u.disp3d.map Arr3.n0).getD i 0)
        (fun i => (u.disp3d.map Arr3.n1).getD i 0) := by
      intro v hv
      obtain rfl : v = u := by
        rcases List.mem_cons.mp hv with h | h
        · exact h
        · exact List.eq_of_mem_replicate h
      refine ⟨rfl, hl, fun i a ha => ?_⟩
      simp [List.getD_eq_getElem?_getD, List.getElem?_map, ha]
    obtain ⟨A'', hA'', -, hv, -⟩ := C53_pool parse pj (List.replicate (k + 1) x) u (List.replicate k u)
      (by rw [replicate_mapM parse hx]; rfl) _ _ _ hs
    rw [hA] at hA''
    obtain rfl := Except.ok.inj hA''
    exact hv
  have hmap : A.disp3d.map (mscd Finset.univ fun _ => q) = u.disp3d.map fun a => ((k + 1 : ℕ) : K) ^ 2 * mscd Finset.univ (fun _ => q) a := by
    refine copies_map (k := k) (φ := fun m => ((k + 1 : ℕ) : K) ^ 2 * m) hlen fun i a ha => ?_
    obtain ⟨p, hp, e0, e1, e2⟩ := hget i a ha
    refine ⟨p, hp, ?_⟩
    unfold mscd
    rw [e0, e1, ← mul_div_assoc, Finset.mul_sum]
    congr 1
    apply Finset.sum_congr rfl
    intro t _
    rw [Finset.mul_sum]
    apply Finset.sum_congr rfl
    intro y _
    rw [sum_blocks]
    have : ∀ j ∈ Finset.range (k + 1), ∑ r ∈ Finset.range a.n0, q * p.get (j * a.n0 + r) t y =
        ∑ r ∈ Finset.range a.n0, q * a.get r t y := by
      intro j hj
      apply Finset.sum_congr rfl
      intro r hr
      rw [e2 j (Finset.mem_range.mp hj) r (Finset.mem_range.mp hr) t y]
    rw [Finset.sum_congr rfl this, Finset.sum_const, Finset.card_range, nsmul_eq_mul, mul_pow]
  have h2A : ∀ p ∈ A.disp3d, 2 ≤ p.n1 ∧ p.n0 = (k + 1) * N := by
    intro p hp
    obtain ⟨i, hi⟩ := List.mem_iff_getElem?.mp hp
    have hi' : i < u.disp3d.length := by rw [← hlen]; exact (List.getElem?_eq_some_iff.mp hi).1
    obtain ⟨p', hp', e0, e1, -⟩ := hget i _ (List.getElem?_eq_getElem hi')
    obtain rfl : p = p' := Option.some.inj (hi.symm.trans hp')
    rw [e1, e0]
    exact ⟨h2 _ (List.getElem_mem hi'), by rw [hN _ (List.getElem_mem hi')]⟩
  obtain ⟨ds, dts, f1, -, f3, -⟩ := C31_mscd_ignores_dimension sq o opt hblock g₁ g₂ u.deltaT u.disp3d (.scalar q) u.nO sub d b N (first_half h2) hN
    (by simp) h
  obtain ⟨ds', dts', f1', -, f3', -⟩ := C31_mscd_ignores_dimension sq o opt hblock g₃ g₄ A.deltaT A.disp3d (.scalar q) A.nO sub d b'
    ((k + 1) * N) (first_half fun p hp => (h2A p hp).1) (fun p hp => (h2A p hp).2) (by simp) h'
  have hq : (Charge.scalar q).of = fun _ => q := rfl
  rw [hq] at f3 f3'
  have him := stride_images f1' f1 hmap
  have hdl : ds'.length = ds.length := by simpa using congrArg List.length him
  rw [f3, f3', hdl, List.map_map, List.map_take, List.map_take, him]
  rfl

/-- Three mobile atoms with two intervals, as an example for the hypotheses of C53 and C54, and the violation in numbers: two
copies of the example trajectory give the same MSD but four times the MSTD and MSCD. -/
theorem C54_violated :
    (diffusionAnalyzer id (exOracle ℚ) () ⟨exOpts ℚ, 1, "xyz"⟩ (fromAse exNum exShort exSelect 1 none (.one oneLi))).toOption.map
      (fun r => r.1.diff.n) = some [36 / 125, 117 / 100] ∧
    (diffusionAnalyzer id (exOracle ℚ) () ⟨exOpts ℚ, 1, "xyz"⟩ (fromAse exNum exShort exSelect 1 (some "identical") (.several [oneLi, oneLi]))).toOption.map
      (fun r => r.1.diff.n) = some [36 / 125, 117 / 100] ∧
    (jumpAnalyzer id (exOracle ℚ) () ⟨exOpts ℚ, 1, "xyz"⟩ (fromAse exNum exShort exSelect 1 none (.one oneLi))).toOption.map
      (fun r => r.1.diff.n) = some [36 / 125] ∧
    (jumpAnalyzer id (exOracle ℚ) () ⟨exOpts ℚ, 1, "xyz"⟩ (fromAse exNum exShort exSelect 1 (some "identical") (.several [oneLi, oneLi]))).toOption.map
      (fun r => r.1.diff.n) = some [144 / 125] ∧
    (conductivityAnalyzer id (exOracle ℚ) () ⟨exOpts ℚ, 1, "xyz"⟩ (.scalar 1) (fromAse exNum exShort exSelect 1 none (.one oneLi))).toOption.map
      (fun r => r.1.diff.n) = some [36 / 125] ∧
    (conductivityAnalyzer id (exOracle ℚ) () ⟨exOpts ℚ, 1, "xyz"⟩ (.scalar 1) (fromAse exNum exShort exSelect 1 (some "identical") (.several [oneLi, oneLi]))).toOption.map
      (fun r => r.1.diff.n) = some [144 / 125] := by
  refine ⟨?_, ?_, ?_, ?_, ?_, ?_⟩ <;> decide +kernel

/-! ## C55 -/

/-- **C55, violated whenever it matters.** A charge array with one entry per ion (at least two ions) never works for two or more pooled
trajectories: `ConductivityAnalyzer` raises ValueError, for every input format and all trajectories (with at least two intervals). -/
theorem C55_violated_always {α : Type} (parse : α → PyM (Parsed K)) (pj : Option (List α → PyM (Parsed K))) (xs : List α)
    (u0 u1 : Parsed K) (others : List (Parsed K)) (hp : xs.mapM parse = .ok (u0 :: u1 :: others)) (m : ℕ) (N T : ℕ → ℕ)
    (hs : SameShape (u0 :: u1 :: others) m N T) (hm : 2 ≤ m) (q : List K) (hq : q.length = N 0) (hN : 2 ≤ N 0)
    (sq : K → K) (o : Oracle K G) (g : G) (U : UncParams K) (hsub : U.sub = 1) (hd : U.dimension.toLower ∈ acceptedDims) :
    conductivityAnalyzer sq o g U (.array q) (analyzerFrom parse pj (some "identical") (.several xs)) = .error .valueError := by
  obtain ⟨A, hA, -, -, hlen, -, hcat, -⟩ := C53_pool parse pj xs u0 (u1 :: others) hp m N T hs
  obtain ⟨p, hp0, hc⟩ := hcat 0 (by omega)
  have hn : p.n0 = (others.length + 2) * N 0 := by
    rw [hc.atoms]
    congr 1
    have hget : ∀ u ∈ u0 :: u1 :: others, ∃ a, u.disp3d[0]? = some a := by
      intro u hu
      exact ⟨_, List.getElem?_eq_getElem (by rw [(hs u hu).1]; omega)⟩
    have hlen : ∀ us : List (Parsed K), (∀ u ∈ us, ∃ a, u.disp3d[0]? = some a) →
        (us.filterMap fun u => u.disp3d[0]?).length = us.length := by
      intro us
      induction us with
      | nil => intro _; rfl
      | cons u us ih =>
        intro h
        obtain ⟨a, ha⟩ := h u (by simp)
        rw [List.filterMap_cons, ha, List.length_cons, List.length_cons, ih fun v hv => h v (by simp [hv])]
    rw [hlen _ hget]
    rfl
  rw [hA]
  obtain ⟨d0, d1, rest, hdisp⟩ : ∃ d0 d1 rest, A.disp3d = d0 :: d1 :: rest := by
    match hA3 : A.disp3d with
    | [] => rw [hA3] at hlen; simp at hlen; omega
    | [_] => rw [hA3] at hlen; simp at hlen; omega
    | d0 :: d1 :: rest => exact ⟨d0, d1, rest, rfl⟩
  have hd0 : d0 = p := by rw [hdisp] at hp0; simpa using hp0
  have h2N : 2 * N 0 ≤ (others.length + 2) * N 0 := Nat.mul_le_mul_right _ (by omega)
  unfold conductivityAnalyzer
  simp only [bind, Except.bind]
  rw [hdisp, hsub, C30_wrong_length sq o U.opt g A.deltaT d0 d1 rest q A.nO U.dimension hd
    (by rw [hd0, hn, hq]; omega) (by omega) (by rw [hd0, hn]; omega)]

/-- **C55, violated.** A charge array that is valid for one trajectory is rejected for two trajectories of the same system. -/
theorem C55_violated :
    (conductivityAnalyzer id (exOracle ℚ) () ⟨exOpts ℚ, 1, "xyz"⟩ (.array [1, -1]) (fromAse exNum exShort exSelect 1 none (.one exTraj))).toOption.map
      (fun r => r.1.diff.n) = some [336 / 125] ∧
    (conductivityAnalyzer id (exOracle ℚ) () ⟨exOpts ℚ, 1, "xyz"⟩ (.array [1, -1])
      (fromAse exNum exShort exSelect 1 (some "identical") (.several [exTraj, exTraj]))).toOption.isSome = false := by
  refine ⟨?_, ?_⟩ <;> decide +kernel

/-- **C55, what holds.** A scalar charge is accepted for the pool: with default options the object is built, and each MSCD is that of all
pooled atoms.  (For a charge array nothing holds, see above.) -/
theorem C55_scalar_partial (sq : K → K) (o : Oracle K G) (g : G) (U : UncParams K) (hboot : U.opt.bootstrap = false)
    (hblock : U.opt.block = false) (hsub : U.sub = 1) (hd : U.dimension.toLower ∈ acceptedDims) (A : Base K) (N : ℕ)
    (hne : A.disp3d ≠ []) (hN : ∀ a ∈ A.disp3d, a.n0 = N) (h2 : ∀ a ∈ A.disp3d, 2 ≤ a.n1)
    (hn : A.disp3d.length / 2 ≤ A.nO.length) (ht : A.disp3d.length / 2 ≤ A.deltaT.length) (q : K) :
    ∃ r, conductivityAnalyzer sq o g U (.scalar q) (.ok A) = .ok (r, g) ∧
      r.diff.n = (A.disp3d.take (A.disp3d.length / 2)).map (mscd Finset.univ fun _ => q) := by
  obtain ⟨b0, hb0, -⟩ := (C27_dimension A.deltaT A.disp3d A.nO U.dimension hne).1 hd
  obtain ⟨ds, dts, sel, d0, e1, e2, e3, e4, hb0'⟩ := bootInit_inv hb0
  rw [pyStride_one] at e1 e2
  obtain rfl := Except.ok.inj e1
  obtain rfl := Except.ok.inj e2
  have hhead : ((b0.displacements.map Arr3.n0).headD 0) = N := by
    rw [hb0']
    dsimp only
    cases hd : A.disp3d with
    | nil => exact absurd hd hne
    | cons d rest => exact hN d (by rw [hd]; simp)
  obtain ⟨b, hb⟩ := observeAll_ok (sq := sq) (o := o) (opt := U.opt) hboot hblock
    (Q := mscdQuantity ((Charge.scalar q).expand N)) (nO := A.nO) (b0 := b0) (g := g)
    (bootInit_empty hb0) (P := A.disp3d.length / 2) hn (by rw [hb0']; exact ht) (A.disp3d.length / 2) (by
      intro i hi
      have hi' : i < A.disp3d.length := by omega
      have hmem := List.getElem_mem hi'
      refine ⟨A.disp3d[i], _, by rw [hb0']; exact List.getElem?_eq_getElem hi', chgMotion_eq (by simp [Charge.expand, hN _ hmem]), ?_⟩
      simp only [List.length_map, List.length_range, hi, iff_true]
      exact h2 _ hmem)
  have hrun : mscdBootstrap sq o U.opt g A.deltaT A.disp3d (.scalar q) A.nO U.sub U.dimension = .ok (b, g) := by
    unfold mscdBootstrap
    rw [hsub, hb0]
    simp only [bind, Except.bind]
    rw [hhead]
    have : b0.displacements.length / 2 = A.disp3d.length / 2 := by rw [hb0']
    rw [this]
    exact hb
  refine ⟨⟨A, b⟩, ?_, ?_⟩
  · unfold conductivityAnalyzer
    simp only [bind, Except.bind]
    rw [hrun]
  · obtain ⟨ds, dts, f1, -, f3, -⟩ := C31_mscd_ignores_dimension sq o U.opt hblock g g A.deltaT A.disp3d (.scalar q) A.nO U.sub
      U.dimension b N (first_half h2) hN (by simp) hrun
    rw [hsub, pyStride_one] at f1
    obtain rfl := Except.ok.inj f1
    exact f3

/-- A pool of two arrays (three atoms) with a scalar charge. -/
example : ∃ r, conductivityAnalyzer id (exOracle ℚ) () ⟨exOpts ℚ, 1, "xyz"⟩ (.scalar 2)
    (.ok ⟨[1, 2], [exPoolArr, exPoolArr], [6, 3], some 1000⟩) = .ok (r, ()) ∧ r.diff.n = [mscd Finset.univ (fun _ => 2) exPoolArr] :=
  C55_scalar_partial id (exOracle ℚ) () ⟨exOpts ℚ, 1, "xyz"⟩ rfl rfl rfl (by decide +kernel) ⟨[1, 2], [exPoolArr, exPoolArr], [6, 3], some 1000⟩ 3
    (by simp) (by simp [exPoolArr]) (by simp [exPoolArr]) (by simp) (by simp) 2

/-! ## C56 -/

theorem flattenList_eq {α : Type} (l : List (List α)) : flattenList l = l.flatten := by
  unfold flattenList
  simp [List.flatMap]

/-- **C56 (pymatgen).** `dtype='consecutive'` is the analysis of the joined trajectory. -/
theorem C56_pymatgen (E : Num K) (P : Params K) (S : Select K) (subTraj : ℤ) (parts : List (List (Frame K))) :
    fromPymatgen E P S subTraj (some "consecutive") (.several parts) = fromPymatgen E P S subTraj none (.one parts.flatten) := by
  unfold fromPymatgen analyzerFrom
  dsimp only
  rw [if_neg (by decide), if_pos rfl]
  simp only [Traj.asList, Traj.asOne, bind, Except.bind, flattenList_eq]

/-- **C56 (ASE).** -/
theorem C56_ase (E : Num K) (P : Params K) (S : Select K) (subTraj : ℤ) (parts : List (List (Frame K))) :
    fromAse E P S subTraj (some "consecutive") (.several parts) = fromAse E P S subTraj none (.one parts.flatten) := by
  unfold fromAse analyzerFrom
  dsimp only
  rw [if_neg (by decide), if_pos rfl]
  simp only [Traj.asList, Traj.asOne, bind, Except.bind, flattenList_eq]

/-- **C56 (Xdatcar objects).** `x` is any object whose structures are the joined structures. -/
theorem C56_xdatcar {X : Type} (structures : X → List (Frame K)) (E : Num K) (P : Params K) (S : Select K) (subTraj : ℤ)
    (parts : List X) (x : X) (hx : structures x = (parts.map structures).flatten) :
    fromXdatcar structures E P S subTraj (some "consecutive") (.several parts) =
      fromXdatcar structures E P S subTraj none (.one x) := by
  unfold fromXdatcar analyzerFrom
  dsimp only
  rw [if_neg (by decide), if_pos rfl]
  simp only [Traj.asList, Traj.asOne, bind, Except.bind, flattenList_eq, hx]

/-- An object given by the list of its structures. -/
example : fromXdatcar id exNum exParams exSelect 1 (some "consecutive") (.several [exTraj.take 2, exTraj.drop 2]) =
    fromXdatcar id exNum exParams exSelect 1 none (.one exTraj) :=
  C56_xdatcar id exNum exParams exSelect 1 [exTraj.take 2, exTraj.drop 2] exTraj (by simp)

/-- **C56 (files).** `f` is any file with the joined contents. -/
theorem C56_file (read : String → PyM (List (Frame K))) (E : Num K) (P : Params K) (S : Select K) (subTraj : ℤ)
    (parts : List String) (contents : List (List (Frame K))) (hr : parts.mapM read = .ok contents) (f : String)
    (hf : read f = .ok contents.flatten) :
    fromFile read E P S subTraj (some "consecutive") (.several parts) = fromFile read E P S subTraj none (.one f) := by
  unfold fromFile analyzerFrom
  dsimp only
  rw [if_neg (by decide), if_pos rfl]
  simp only [Traj.asList, Traj.asOne, bind, Except.bind, flattenList_eq, hf, hr]

/-- Files "a" and "b" with the two parts of a trajectory and a file "c" with the whole of it. -/
example : fromFile (fun s => .ok (if s = "a" then exTraj.take 2 else if s = "b" then exTraj.drop 2 else exTraj)) exNum exParams exSelect 1
      (some "consecutive") (.several ["a", "b"]) =
    fromFile (fun s => .ok (if s = "a" then exTraj.take 2 else if s = "b" then exTraj.drop 2 else exTraj)) exNum exParams exSelect 1
      none (.one "c") :=
  C56_file _ exNum exParams exSelect 1 ["a", "b"] [exTraj.take 2, exTraj.drop 2] rfl "c" (by simp)

/-- **C56, cuts.** How a trajectory is cut into parts does not matter for any analyzer. -/
theorem C56_cut (E : Num K) (P : Params K) (S : Select K) (subTraj : ℤ) (parts parts' : List (List (Frame K)))
    (h : parts.flatten = parts'.flatten) (sq : K → K) (o : Oracle K G) (g : G) (U : UncParams K) (q : Charge K) :
    diffusionAnalyzer sq o g U (fromAse E P S subTraj (some "consecutive") (.several parts)) =
      diffusionAnalyzer sq o g U (fromAse E P S subTraj (some "consecutive") (.several parts')) ∧
    jumpAnalyzer sq o g U (fromPymatgen E P S subTraj (some "consecutive") (.several parts)) =
      jumpAnalyzer sq o g U (fromPymatgen E P S subTraj (some "consecutive") (.several parts')) ∧
    conductivityAnalyzer sq o g U q (fromPymatgen E P S subTraj (some "consecutive") (.several parts)) =
      conductivityAnalyzer sq o g U q (fromPymatgen E P S subTraj (some "consecutive") (.several parts')) := by
  refine ⟨?_, ?_, ?_⟩
  · rw [C56_ase, C56_ase, h]
  · rw [C56_pymatgen, C56_pymatgen, h]
  · rw [C56_pymatgen, C56_pymatgen, h]

/-- Cutting the example trajectory after two frames; the analysis succeeds. -/
example : [exTraj.take 2, exTraj.drop 2].flatten = [exTraj].flatten ∧
    (fromAse exNum exParams exSelect 1 (some "consecutive") (.several [exTraj.take 2, exTraj.drop 2])).toOption.isSome = true := by
  refine ⟨by simp, ?_⟩
  decide +kernel

/-! ## C57 -/

/-- **C57.** Every dtype other than `None`, `'identical'` and `'consecutive'` raises ValueError, for every input format and whatever the
trajectory is. -/
theorem C57_unknown (s : String) (h1 : s ≠ "identical") (h2 : s ≠ "consecutive") (E : Num K) (P : Params K) (S : Select K)
    (subTraj subAtoms : ℤ) {X : Type} (structures : X → List (Frame K)) (read : String → PyM (List (Frame K))) :
    (∀ t, fromPymatgen E P S subTraj (some s) t = .error .valueError) ∧
    (∀ t, fromAse E P S subTraj (some s) t = .error .valueError) ∧
    (∀ t, fromXdatcar structures E P S subTraj (some s) t = .error .valueError) ∧
    (∀ t, fromFile read E P S subTraj (some s) t = .error .valueError) ∧
    (∀ t, fromUniverse E P S subAtoms subTraj (some s) t = .error .valueError) := by
  refine ⟨?_, ?_, ?_, ?_, ?_⟩ <;> intro t
  · unfold fromPymatgen analyzerFrom; dsimp only; rw [if_neg h1, if_neg h2]
  · unfold fromAse analyzerFrom; dsimp only; rw [if_neg h1, if_neg h2]
  · unfold fromXdatcar analyzerFrom; dsimp only; rw [if_neg h1, if_neg h2]
  · unfold fromFile analyzerFrom; dsimp only; rw [if_neg h1, if_neg h2]
  · unfold fromUniverse analyzerFrom; dsimp only; rw [if_neg h1, if_neg h2]

/-- A spelling mistake. -/
example : fromAse exNum exParams exSelect 1 (some "Identical") (.several [exTraj, exTraj]) = .error .valueError :=
  (C57_unknown "Identical" (by decide) (by decide) exNum exParams exSelect 1 1 (id : List (Frame ℚ) → _) fun _ => .ok []).2.1 _

/-- **C57 (universes).** For universes `'consecutive'` is rejected, too. -/
theorem C57_universe (E : Num K) (P : Params K) (S : Select K) (subAtoms subTraj : ℤ) (t : Traj (Universe K)) :
    fromUniverse E P S subAtoms subTraj (some "consecutive") t = .error .valueError := by
  unfold fromUniverse analyzerFrom
  dsimp only
  rw [if_neg (by decide), if_pos rfl]

/-- **C57, the accepted values.** Each of the three accepted values can succeed. -/
theorem C57_accepted : (fromAse exNum exParams exSelect 1 none (.one exTraj)).toOption.isSome = true ∧
    (fromAse exNum exParams exSelect 1 (some "identical") (.several [exTraj, exTraj])).toOption.isSome = true ∧
    (fromAse exNum exParams exSelect 1 (some "consecutive") (.several [exTraj, exTraj])).toOption.isSome = true := by
  refine ⟨?_, ?_, ?_⟩ <;> decide +kernel

/-! ## C76 -/

/-- **C76, violated.** With `sampling='single-origin'` every array has one observation, so that trajectories of different lengths pass the
shape check: intervals of 1, 3, 5 frames of the first trajectory are pooled with intervals of 1, 5, 9 frames of the second, and
the result is labelled with the times of the first. -/
theorem C76_violated :
    (aseParser exNum { exParams with nSteps := 3, sampling := "single-origin" } exSelect 1 exTraj).toOption.map (fun u => u.deltaT) =
      some [6, 18, 30] ∧
    (aseParser exNum { exParams with nSteps := 3, sampling := "single-origin" } exSelect 1 (exTraj ++ exTraj.take 4)).toOption.map (fun u => u.deltaT) =
      some [6, 30, 54] ∧
    (fromAse exNum { exParams with nSteps := 3, sampling := "single-origin" } exSelect 1 (some "identical")
      (.several [exTraj, exTraj ++ exTraj.take 4])).toOption.map (fun A => (A.deltaT, A.disp3d.map fun a => (a.n0, a.n1))) =
      some ([6, 18, 30], [(4, 1), (4, 1), (4, 1)]) := by
  refine ⟨?_, ?_, ?_⟩ <;> decide +kernel

theorem oneInterval_kept {fl : K → K} {idx : List ℤ} {last : ℤ} {dc : Arr3 K} {p : ℤ × ℕ} {r} (hi : 2 ≤ idx.length)
    (h : oneInterval fl idx "multi-origin" last dc p = .ok r) : ∃ x, r = some x := by
  unfold oneInterval at h
  dsimp only at h
  cases h1 : idx.mapM (npIdx dc.n0) with
  | error e => rw [h1] at h; cases h
  | ok rows =>
  rw [h1] at h
  simp only [bind, Except.bind] at h
  rw [if_neg (by decide), if_pos trivial] at h
  cases h2 : multiOrigin dc rows p.1 with
  | error e => rw [h2] at h; cases h
  | ok disp =>
  rw [h2] at h
  dsimp only at h
  by_cases h0 : p.1 = 0
  · rw [if_pos h0] at h; cases h
  rw [if_neg h0] at h
  have hd : disp.n0 = rows.length ∧ 1 ≤ disp.n1 := by
    unfold multiOrigin at h2
    cases h3 : npIdx dc.n1 (p.1 - 1) with
    | error e => rw [h3] at h2; cases h2
    | ok f =>
    rw [h3] at h2
    simp only [bind, Except.bind] at h2
    split_ifs at h2
    obtain rfl := Except.ok.inj h2
    exact ⟨rfl, by simp⟩
  have hc : 1 ≤ strideCount disp.n1 p.1 := by
    unfold strideCount
    have : 0 < p.1.natAbs := Int.natAbs_pos.mpr h0
    rw [Nat.one_le_div_iff this]
    omega
  have hr : rows.length = idx.length := (mapM_ok_inv h1).1
  have : 2 * 1 ≤ disp.n0 * strideCount disp.n1 p.1 := Nat.mul_le_mul (by omega) hc
  rw [if_neg (by omega)] at h
  exact ⟨_, (Except.ok.inj h).symm⟩

theorem filterMap_id_length {α : Type} : ∀ {l : List (Option α)}, (∀ x ∈ l, ∃ y, x = some y) → (l.filterMap id).length = l.length := by
  intro l
  induction l with
  | nil => intro _; rfl
  | cons x l ih =>
    intro h
    obtain ⟨y, rfl⟩ := h x (by simp)
    rw [List.filterMap_cons]
    exact congrArg Nat.succ (ih fun z hz => h z (by simp [hz]))

/-- What `parserInit` computed, for several origins and at least two selected atoms. -/
theorem parserInit_multi {E : Num K} {P : Params K} {w : Bool} {disp : Arr3 K} {sel : Selection} {r : Parsed K}
    (h : parserInit E P w disp sel = .ok r) (hs : P.sampling = "multi-origin") (hi : 2 ≤ r.indices.length) :
    initTimeIntervals E.fl E.geo r.dc.n1 P.timeStep P.stepSkip P.minDt P.maxDt P.nSteps P.spacing = .ok r.intervals ∧
      r.deltaT = (r.intervals.map fun τ => (deltaTOf E.fl P.timeStep P.stepSkip τ).val) ∧ r.nO.length = r.intervals.length := by
  unfold parserInit at h
  cases h4 : correctDriftSeq sel.drift disp with
  | error e => rw [h4] at h; cases h
  | ok dc =>
  rw [h4] at h
  simp only [bind, Except.bind] at h
  cases h5 : initTimeIntervals E.fl E.geo dc.n1 P.timeStep P.stepSkip P.minDt P.maxDt P.nSteps P.spacing with
  | error e => rw [h5] at h; cases h
  | ok ti =>
  rw [h5] at h
  simp only at h
  cases h6 : getDisps E.fl (E.fl (1 / 10 ^ 9)) P.itemsize P.timeStep P.stepSkip sel.indices P.sampling P.memoryLimit ti dc with
  | error e => rw [h6] at h; cases h
  | ok o =>
  rw [h6] at h
  obtain rfl := Except.ok.inj h
  refine ⟨h5, ?_⟩
  dsimp only at hi ⊢
  unfold getDisps at h6
  cases hc : checkRows ti sel.indices dc.n0 with
  | error e => rw [hc] at h6; cases h6
  | ok rows =>
  rw [hc] at h6
  simp only [bind, Except.bind] at h6
  split at h6
  · cases h6
  cases hm : ti.zipIdx.mapM (oneInterval E.fl sel.indices P.sampling (ti.getLastD 0) dc) with
  | error e => rw [hm] at h6; cases h6
  | ok l =>
  rw [hm] at h6
  obtain rfl := Except.ok.inj h6
  refine ⟨rfl, ?_⟩
  obtain ⟨hl, hg⟩ := mapM_ok_inv hm
  rw [List.length_map, filterMap_id_length, hl, List.length_zipIdx]
  intro x hx
  obtain ⟨i, hxi⟩ := List.mem_iff_getElem?.mp hx
  have hil : i < ti.zipIdx.length := by rw [← hl]; exact (List.getElem?_eq_some_iff.mp hxi).1
  obtain ⟨y, hy, hyi⟩ := hg i _ (List.getElem?_eq_getElem hil)
  obtain rfl : x = y := Option.some.inj (hxi.symm.trans hyi)
  rw [hs] at hy
  exact oneInterval_kept hi hy

theorem addNO_inv {acc l r : List K} (h : addNO acc l = .ok r) : (l.length = acc.length ∨ l.length = 1) ∧ r.length = acc.length := by
  unfold addNO at h
  by_cases he : l.length = acc.length
  · rw [if_pos he] at h
    obtain rfl := Except.ok.inj h
    exact ⟨Or.inl he, by simp [he]⟩
  · rw [if_neg he] at h
    match l with
    | [] => cases h
    | [x] => obtain rfl := Except.ok.inj h; exact ⟨Or.inr rfl, by simp⟩
    | _ :: _ :: _ => cases h

theorem foldNO_inv : ∀ {us : List (Parsed K)} {acc r : List K}, us.foldlM (fun acc u => addNO acc u.nO) acc = .ok r →
    ∀ u ∈ us, u.nO.length = acc.length ∨ u.nO.length = 1 := by
  intro us
  induction us with
  | nil => intro _ _ _ u hu; cases hu
  | cons v us ih =>
    intro acc r h u hu
    rw [List.foldlM_cons] at h
    cases ha : addNO acc v.nO with
    | error e => rw [ha] at h; cases h
    | ok acc' =>
      rw [ha] at h
      obtain ⟨h1, h2⟩ := addNO_inv ha
      rcases List.mem_cons.mp hu with rfl | hu
      · exact h1
      · rw [← h2]; exact ih h u hu

/-- **C76, what holds.** With default sampling (several origins), default `min_dt` and `max_dt`, linear spacing, enough `n_steps` and at least
two mobile atoms, trajectories are only pooled when their time intervals are equal; trajectories of different lengths are rejected.
Exact arithmetic.  (Missing for the full property: other parameters; see `C76_violated`.) -/
theorem C76_default_partial (E : Num K) (hE : E.fl = id) (P : Params K) (S : Select K) (subTraj : ℤ)
    (hs : P.sampling = "multi-origin") (hmin : P.minDt = none) (hmax : P.maxDt = none) (hlin : P.spacing = "linear")
    (hpos : 0 < P.stepSkip.val * P.timeStep.val) (trajs : List (List (Frame K))) (u0 : Parsed K) (others : List (Parsed K))
    (hp : trajs.mapM (aseParser E P S subTraj) = .ok (u0 :: others))
    (hu : ∀ u ∈ u0 :: others, 2 ≤ u.indices.length ∧ 2 ≤ u.dc.n1 ∧ (u.dc.n1 : ℤ) ≤ P.nSteps) (A : Base K)
    (hA : fromAse E P S subTraj (some "identical") (.several trajs) = .ok A) :
    ∀ u ∈ others, u.intervals = u0.intervals ∧ u.deltaT = u0.deltaT ∧ A.deltaT = u.deltaT := by
  have hone : ∀ u ∈ u0 :: others, u.intervals = ((List.range u.dc.n1).map fun i : ℕ => (i : ℤ) + 1) ∧
      u.deltaT = (u.intervals.map fun τ => (deltaTOf E.fl P.timeStep P.stepSkip τ).val) ∧ u.nO.length = u.dc.n1 := by
    intro u hmem
    obtain ⟨j, hj⟩ := List.mem_iff_getElem?.mp hmem
    obtain ⟨hl, hg⟩ := mapM_ok_inv hp
    have hjl : j < trajs.length := by rw [← hl]; exact (List.getElem?_eq_some_iff.mp hj).1
    obtain ⟨y, hy, hyj⟩ := hg j _ (List.getElem?_eq_getElem hjl)
    obtain rfl : u = y := Option.some.inj (hj.symm.trans hyj)
    obtain ⟨hi, hT, hn⟩ := hu u hmem
    have hfin : ∀ (st : Frame K) (coords : List (List (V3 K))) (latt : List (M3 K)), buildParser E P S st coords latt = .ok u →
        u.intervals = ((List.range u.dc.n1).map fun i : ℕ => (i : ℤ) + 1) ∧
        u.deltaT = (u.intervals.map fun τ => (deltaTOf E.fl P.timeStep P.stepSkip τ).val) ∧ u.nO.length = u.dc.n1 := by
      intro st coords latt hb
      obtain ⟨coords', sel, w, disp, r0, -, -, h3, rfl⟩ := buildParser_inv hb
      dsimp only at hi hT hn ⊢
      obtain ⟨e1, e2, e3⟩ := parserInit_multi h3 hs hi
      rw [hE, hmin, hmax, hlin, C09_default_intervals E.geo P.timeStep P.stepSkip hpos _ hT P.nSteps hn] at e1
      have e1 := (Except.ok.inj e1).symm
      exact ⟨e1, e2, by rw [e3, e1]; simp⟩
    unfold aseParser at hy
    cases h1 : pyStride subTraj trajs[j] with
    | error e => rw [h1] at hy; cases hy
    | ok fr' =>
    rw [h1] at hy
    simp only [bind, Except.bind] at hy
    cases h2 : structureCoordsLatt fr' with
    | error e => rw [h2] at hy; cases hy
    | ok x => rw [h2] at hy; exact hfin _ _ _ hy
  intro u hmem
  have hA0 : poolIdentical (u0 :: others) = .ok A := by
    unfold fromAse analyzerFrom at hA
    dsimp only at hA
    rw [if_pos rfl] at hA
    simp only [Traj.asList, bind, Except.bind] at hA
    rw [hp] at hA
    exact hA
  simp only [poolIdentical, bind, Except.bind] at hA0
  cases hnO : (u0 :: others).foldlM (fun acc u => addNO acc u.nO) (List.replicate u0.nO.length 0) with
  | error e => rw [hnO] at hA0; cases hA0
  | ok nO =>
  rw [hnO] at hA0
  cases hd : stackTrajectories u0 others with
  | error e => rw [hd] at hA0; cases hA0
  | ok disp =>
  rw [hd] at hA0
  obtain rfl := Except.ok.inj hA0
  obtain ⟨a1, a2, a3⟩ := hone u0 (by simp)
  obtain ⟨b1, b2, b3⟩ := hone u (by simp [hmem])
  have hlen := foldNO_inv hnO u (by simp [hmem])
  rw [List.length_replicate, a3, b3] at hlen
  have h2 := (hu u (by simp [hmem])).2.1
  have hT : u.dc.n1 = u0.dc.n1 := by omega
  have hI : u.intervals = u0.intervals := by rw [a1, b1, hT]
  have hD : u.deltaT = u0.deltaT := by rw [a2, b2, hI]
  exact ⟨hI, hD, hD.symm⟩

/-- The hypotheses of `C76_default_partial` hold for two different trajectories of the example system. -/
example : ([exTraj, exTraj.reverse].mapM (aseParser exNum exParams exSelect 1)).toOption.map (fun us =>
      us.map fun u => (u.indices.length, u.dc.n1)) = some [(2, 5), (2, 5)] ∧
    (fromAse exNum exParams exSelect 1 (some "identical") (.several [exTraj, exTraj.reverse])).toOption.isSome = true := by
  refine ⟨?_, ?_⟩ <;> decide +kernel

end Kinisi
