import Verif.Props.Totality
import Verif.Props.Molecules
import Verif.Props.RandomWalk
import Mathlib.Tactic.IntervalCases

/-!
# C79 for every way of naming the atoms, and for molecules
-/

set_option linter.unusedSectionVars false
set_option linter.unusedVariables false

namespace Kinisi
open Spec
variable {K : Type} [Field K] [LinearOrder K] [IsStrictOrderedRing K] [FloorRing K] {G : Type}

theorem frames_ok {E : Num K} {P : Params K} {S : Select K} {n N : ℕ} {f0 : Frame K} {rest : List (Frame K)}
    (hP : OnGrid E P (rest.length + 1) N) (hP' : OnGrid E { P with stepSkip := P.stepSkip.mul E.fl (.int 1) } (rest.length + 1) N)
    (hN1 : 1 ≤ N) (hS : Selects E.trig S f0 rest n N)
    (hv : ∀ f ∈ f0 :: rest, NonSingular f.latt)
    (hmem : ((3 * N * (rest.length + 1) * (rest.length + 1) * P.itemsize : ℕ) : K) ≤ P.memoryLimit * 10 ^ 9)
    {uni : Universe K} (hU : uni.2.mapM (mdaFrame uni.1 1) = .ok (f0 :: rest)) {base : PyM (Base K)} {unit : K}
    (hbase : ReadFrames E P S (f0 :: rest) uni base unit) (hi : unit = 1000 → (P.timeStep.isInt && P.stepSkip.isInt) = false) :
    ∃ B, base = .ok B ∧ Usable (rest.length + 1) N B := by
  rcases hbase with ⟨rfl, rfl⟩ | ⟨rfl, rfl⟩ | ⟨rfl, rfl⟩
  · obtain ⟨r, hb, hu, -⟩ := build_selected hP hN1 hS hv hmem
    refine ⟨baseOf r, ?_, hu⟩
    unfold fromAse analyzerFrom
    simp only [Traj.asOne, bind, Except.bind, aseParser, pyStride_one, structureCoordsLatt, List.map_cons]
    rw [hb]
  · obtain ⟨r, hb, hu, hri⟩ := build_selected hP' hN1 hS hv hmem
    have hf := hi rfl
    have hi' : r.deltaInt = false := by
      rw [hri]
      dsimp only
      cases hs : P.stepSkip <;> rw [hs] at hf
      · simpa [PyNum.mul, PyNum.isInt] using hf
      · simp [PyNum.mul, PyNum.isInt]
    refine ⟨baseOf { r with deltaT := r.deltaT.map fun t => E.fl (t * E.fl (1 / 10 ^ 3)) }, ?_, ?_⟩
    · unfold fromPymatgen analyzerFrom
      simp only [Traj.asOne, bind, Except.bind, pymatgenParser, pyStride_one, structureCoordsLatt, List.map_cons]
      rw [hb]
      simp only
      rw [hi']
      rfl
    · obtain ⟨h1, h2, h3, h4, h5, h6⟩ := hu
      refine ⟨h1, h2, ?_, h4, h5, h6⟩
      simpa [baseOf] using h3
  · obtain ⟨r, hb, hu, -⟩ := build_selected hP' hN1 hS hv hmem
    refine ⟨baseOf r, ?_, hu⟩
    unfold fromUniverse analyzerFrom
    simp only [Traj.asOne, bind, Except.bind, mdaParser, ne_eq, not_true_eq_false, decide_false, Bool.false_and, Bool.false_eq_true,
      ↓reduceIte, pyStride_one]
    rw [hU]
    simp only [structureCoordsLatt, List.map_cons]
    rw [hb]

/-- The trajectory of `cellFrames` is read by MDAnalysis if every cell has a volume. -/
theorem cellUniverse_ok {F : ℕ} {sy : List String} {C : ℕ → M3 K} (hC : ∀ j < F, NonSingular (C j)) {V : ℕ → K} {s : ℕ → ℕ → V3 K} :
    (cellUniverse F sy C V s).2.mapM (mdaFrame (cellUniverse F sy C V s).1 1) = .ok (cellFrames F sy C V s) := by
  have hd : ∀ f ∈ (cellUniverse F sy C V s).2, ∃ v, mdaFrame sy 1 f = .ok v := by
    intro f hf
    obtain ⟨j, hj, rfl⟩ := List.mem_map.mp hf
    have : det3 (C j) ≠ 0 := by rw [det3_eq_det]; exact hC j (by simpa using hj)
    unfold mdaFrame
    simp only [pyStride_one, bind, Except.bind, inv3_ok this]
    exact ⟨_, rfl⟩
  have : ∃ fr, (cellUniverse F sy C V s).2.mapM (mdaFrame (cellUniverse F sy C V s).1 1) = .ok fr := by
    have hd' : ∀ f : (MdaFrame K), ∃ v, f ∈ (cellUniverse F sy C V s).2 → mdaFrame sy 1 f = .ok v := by
      intro f
      by_cases hf : f ∈ (cellUniverse F sy C V s).2
      · obtain ⟨v, hv⟩ := hd f hf
        exact ⟨v, fun _ => hv⟩
      · exact ⟨⟨[], [], 0, 0⟩, fun h => absurd h hf⟩
    choose g hg using hd'
    exact ⟨_, mapM_except_ok _ g _ fun f hf => hg f hf⟩
  obtain ⟨fr, hfr⟩ := this
  rw [hfr, cellUniverse_frames hfr]

theorem cellFrames_cons {F : ℕ} (hF : 2 ≤ F) (sy : List String) (C : ℕ → M3 K) (V : ℕ → K) (s : ℕ → ℕ → V3 K) :
    ∃ f0 rest, cellFrames F sy C V s = f0 :: rest ∧ rest.length + 1 = F ∧
      ∀ f ∈ f0 :: rest, f.symbols = sy ∧ f.frac.length = sy.length ∧ ∃ j < F, f.latt = C j := by
  cases hw : cellFrames F sy C V s with
  | nil => have := congrArg List.length hw; simp [cellFrames] at this; omega
  | cons f0 rest =>
  have hlen : (f0 :: rest).length = F := by rw [← hw]; simp [cellFrames]
  refine ⟨f0, rest, rfl, by simpa using hlen, ?_⟩
  rw [← hw]
  intro f hf
  unfold cellFrames at hf
  obtain ⟨j, hj, rfl⟩ := List.mem_map.mp hf
  exact ⟨rfl, by simp, j, by simpa using hj, rfl⟩

theorem picks_selects {tr : Trig K} {S : Select K} {sy : List String} {atoms fw : List ℕ} (hS : Picks S sy atoms fw) (hne : atoms ≠ [])
    (ht : ∀ f, S.framework = some f → f.isTuple = false) {f0 : Frame K} {rest : List (Frame K)}
    (hv : ∀ f ∈ f0 :: rest, f.symbols = sy ∧ f.frac.length = sy.length) : Selects tr S f0 rest sy.length atoms.length := by
  have hvalid : ∀ l : List ℕ, (∀ i ∈ l, i < sy.length) → ∀ d ∈ l.map (fun k : ℕ => (k : ℤ)), ValidIdx sy.length d := by
    intro l hl d hd
    obtain ⟨i, hi, rfl⟩ := List.mem_map.mp hd
    have := hl i hi
    constructor <;> omega
  have hlen : ∀ c ∈ f0.frac :: f0.frac :: rest.map Frame.frac, c.length = sy.length := by
    intro c hc
    simp only [List.mem_cons, List.mem_map] at hc
    rcases hc with rfl | rfl | ⟨f, hf, rfl⟩
    · exact (hv f0 (by simp)).2
    · exact (hv f0 (by simp)).2
    · exact (hv f (by simp [hf])).2
  have hex : ∃ sel, selectAtoms tr sy (f0.frac :: f0.frac :: rest.map Frame.frac) S = .ok (f0.frac :: f0.frac :: rest.map Frame.frac, sel) ∧
      sel.drift.isTuple = false := by
    have hcn : ∀ sp, chosen sy sp ≠ [] → (positions (fun s => sp.contains s) sy).length ≠ 0 := by
      intro sp h
      rw [positions_eq]
      simpa [chosen] using h
    unfold selectAtoms
    cases hS with
    | species sp hs hf =>
      rw [hs]
      dsimp only
      rw [hf]
      unfold getIndices
      dsimp only
      rw [if_neg (hcn sp hne)]
      exact ⟨_, rfl, rfl⟩
    | framework sp _ t hs hf hm =>
      rw [hs]
      dsimp only
      rw [hf]
      unfold getIndices
      dsimp only
      rw [if_neg (hcn sp hne)]
      exact ⟨_, rfl, ht _ hf⟩
    | numbers _ t hs hi hf hm =>
      rw [hs, hi]
      dsimp only
      rw [if_neg (by simpa using hne), hf]
      exact ⟨_, rfl, rfl⟩
  obtain ⟨sel, hsel, htup⟩ := hex
  obtain ⟨-, h1, h2⟩ := picks_select hS hsel
  refine ⟨_, sel, by rw [(hv f0 (by simp)).1]; exact hsel, by simp, hlen, by rw [h1, List.length_map], ?_, htup, ?_⟩
  · rw [h1]; exact hvalid _ (picks_mem hS).1
  · rw [h2]; exact hvalid _ (picks_mem hS).2

theorem moleculeCentre_runs {tr : Trig K} {masses : Option (List K)} (hm : ∀ w, masses = some w → w.sum ≠ 0) (s : List K) :
    ∃ x, moleculeCentre tr masses s = .ok x := by
  have key : ∀ x : List K, ∃ y, npAverage masses x = .ok y := by
    intro x
    unfold npAverage
    cases masses with
    | none => exact ⟨_, rfl⟩
    | some w => dsimp only; rw [if_neg (hm w rfl)]; exact ⟨_, rfl⟩
  unfold moleculeCentre
  simp only [bind, Except.bind]
  obtain ⟨a, ha⟩ := key ((s.map fun x => x * (2 * tr.pi)).map tr.cos)
  obtain ⟨b, hb⟩ := key ((s.map fun x => x * (2 * tr.pi)).map tr.sin)
  rw [ha, hb]
  simp only
  obtain ⟨c, hc⟩ := key (s.map fun x => mod1 (x - ((tr.arctan2 (-b) (-a) + tr.pi) / (2 * tr.pi) + 1 / 2)))
  rw [hc]
  exact ⟨_, rfl⟩

theorem mapM_runs {α β : Type} {f : α → PyM β} {l : List α} (h : ∀ a ∈ l, ∃ v, f a = .ok v) : ∃ r, l.mapM f = .ok r ∧ r.length = l.length := by
  induction l with
  | nil => exact ⟨[], rfl, rfl⟩
  | cons a l ih =>
    obtain ⟨v, hv⟩ := h a (by simp)
    obtain ⟨r, hr, hl⟩ := ih fun b hb => h b (by simp [hb])
    refine ⟨v :: r, ?_, by simp [hl]⟩
    rw [List.mapM_cons, hv]
    simp only [bind, Except.bind]
    rw [hr]
    rfl

theorem molecules_selects {tr : Trig K} {S : Select K} {sy : List String} {mols : List (List ℕ)} {fw : List ℕ}
    (hS : PicksMolecules S sy mols fw) (hne : mols ≠ []) {len : ℕ} (hl1 : 1 ≤ len) (hlen : ∀ mol ∈ mols, mol.length = len)
    (hmass : ∀ w, S.masses = some w → w.length = len ∧ w.sum ≠ 0) (hfw : S.framework ≠ none → fw ≠ [])
    {f0 : Frame K} {rest : List (Frame K)} (hv : ∀ f ∈ f0 :: rest, f.symbols = sy ∧ f.frac.length = sy.length) :
    Selects tr S f0 rest (mols.length + fw.length) mols.length := by
  have hclen : ∀ c ∈ f0.frac :: f0.frac :: rest.map Frame.frac, c.length = sy.length := by
    intro c hc
    simp only [List.mem_cons, List.mem_map] at hc
    rcases hc with rfl | rfl | ⟨f, hf, rfl⟩
    · exact (hv f0 (by simp)).2
    · exact (hv f0 (by simp)).2
    · exact (hv f (by simp [hf])).2
  generalize hco : f0.frac :: f0.frac :: rest.map Frame.frac = co at hclen
  have hcol : co.length = rest.length + 2 := by rw [← hco]; simp
  have hhead : (co.headD []).length = sy.length := by rw [← hco]; exact (hv f0 (by simp)).2
  have hcentre : ∀ c m, ∃ v, moleculeCentre3 tr S.masses c m = .ok v := by
    intro c m
    have hc := fun s => moleculeCentre_runs (tr := tr) (masses := S.masses) (fun w hw => (hmass w hw).2) s
    unfold moleculeCentre3
    obtain ⟨x0, h0⟩ := hc (m.map fun a => c.getD a 0 0)
    obtain ⟨x1, h1⟩ := hc (m.map fun a => c.getD a 0 1)
    obtain ⟨x2, h2⟩ := hc (m.map fun a => c.getD a 0 2)
    simp only [bind, Except.bind]
    rw [h0, h1, h2]
    exact ⟨_, rfl⟩
  obtain ⟨atoms, hatoms, halen⟩ := mapM_runs (f := fun m : List ℤ => m.mapM (npIdx sy.length))
    (l := (mols.map fun m => m.map fun a : ℕ => (a : ℤ) + 1).map fun m => m.map (· - 1)) (by
      intro m hm
      simp only [List.map_map, List.mem_map, Function.comp] at hm
      obtain ⟨mol, hmol, rfl⟩ := hm
      obtain ⟨r, hr, -⟩ := mapM_runs (f := npIdx sy.length) (l := mol.map fun x : ℕ => (x : ℤ) + 1 - 1) (by
        intro d hd
        obtain ⟨a, ha, rfl⟩ := List.mem_map.mp hd
        have := hS.valid mol hmol a ha
        exact ⟨_, npIdx_valid ⟨by omega, by omega⟩⟩)
      exact ⟨r, by simpa [Function.comp_def] using hr⟩)
  obtain ⟨com, hcom, hcoml⟩ := mapM_runs (f := fun c => atoms.mapM fun m => moleculeCentre3 tr S.masses c m) (l := co) (by
    intro c _
    obtain ⟨r, hr, -⟩ := mapM_runs (f := fun m => moleculeCentre3 tr S.masses c m) (l := atoms) fun m _ => hcentre c m
    exact ⟨r, hr⟩)
  have hcomlen : ∀ r ∈ com, r.length = mols.length := by
    intro r hr
    obtain ⟨i, hi, rfl⟩ := List.mem_iff_getElem.mp hr
    have := (mapM_except_inv hcom).2 i (by omega) hi
    rw [(mapM_except_inv this).1, halen]
    simp
  have hdr : ∃ dr, (if floatIndex S.framework = true then .error .indexError else
      (moleculeDrift sy.length ((mols.map fun m => m.map fun a : ℕ => (a : ℤ) + 1).map fun m => m.map (· - 1)) S.framework).mapM (npIdx sy.length)) =
      (.ok dr : PyM (List ℕ)) ∧ dr.length = fw.length := by
    rcases hS.framework with ⟨hn, hf⟩ | ⟨t, hf⟩
    · rw [hn]
      unfold floatIndex moleculeDrift
      dsimp only
      rw [if_neg (by simp)]
      obtain ⟨r, hr, hl⟩ := mapM_runs (f := npIdx sy.length) (l := ((List.range sy.length).map fun i : ℕ => (i : ℤ)).filter fun i =>
        !((mols.map fun m => m.map fun a : ℕ => (a : ℤ) + 1).map fun m => m.map (· - 1)).flatten.contains i) (by
          intro d hd
          obtain ⟨hd, -⟩ := List.mem_filter.mp hd
          obtain ⟨i, hi, rfl⟩ := List.mem_map.mp hd
          rw [List.mem_range] at hi
          exact ⟨_, npIdx_valid ⟨by omega, by exact_mod_cast hi⟩⟩)
      refine ⟨r, hr, ?_⟩
      rw [hl, hf, List.filter_map, List.length_map]
      congr 1
      apply List.filter_congr
      intro k _
      simp
    · have hfne := hfw (by rw [hf]; simp)
      rw [hf]
      unfold floatIndex moleculeDrift
      dsimp only
      rw [if_neg (by simpa using hfne)]
      obtain ⟨r, hr, hl⟩ := mapM_runs (f := npIdx sy.length) (l := (fw.map fun k : ℕ => (k : ℤ) + 1).map (· - 1)) (by
          intro d hd
          simp only [List.map_map, List.mem_map, Function.comp] at hd
          obtain ⟨k, hk, rfl⟩ := hd
          have := hS.fwValid k hk
          exact ⟨_, npIdx_valid ⟨by omega, by omega⟩⟩)
      exact ⟨r, hr, by rw [hl]; simp⟩
  obtain ⟨dr, hdr, hdrl⟩ := hdr
  split_ifs at hdr with hfi
  have hm0 : ((mols.map fun m => m.map fun a : ℕ => (a : ℤ) + 1).headD []).length = len := by
    cases mols with
    | nil => exact absurd rfl hne
    | cons a l => simpa using hlen a (by simp)
  refine ⟨List.zipWith (fun c cs => cs ++ dr.map fun a => c.getD a 0) co com,
    ⟨(List.range mols.length).map fun i : ℕ => (i : ℤ), ⟨false, (List.range dr.length).map fun i : ℕ => ((mols.length + i : ℕ) : ℤ)⟩⟩,
    ?_, ?_, ?_, ?_, ?_, ?_, ?_⟩
  · rw [hco, (hv f0 (by simp)).1]
    unfold selectAtoms
    rw [hS.specie, hS.idx]
    dsimp only
    rw [if_neg (by simpa using hne)]
    unfold getMolecules
    dsimp only
    rw [hm0, hhead, if_neg, if_neg, if_neg, if_neg (by omega), hatoms]
    · simp only [bind, Except.bind]
      rw [hcom]
      simp only
      rw [if_neg hfi, hdr]
      simp only [List.length_map]
    · rw [Bool.not_eq_false, List.all_eq_true]
      intro c hc
      simpa using hclen c hc
    · rw [Bool.not_eq_false]
      unfold massesFit
      cases hms : S.masses with
      | none => rfl
      | some w => simpa using (hmass w hms).1
    · rw [Bool.not_eq_false, List.all_eq_true]
      intro m hm
      obtain ⟨mol, hmol, rfl⟩ := List.mem_map.mp hm
      simpa using hlen mol hmol
  · simp [hcoml, hcol]
  · intro c hc
    obtain ⟨i, hi, rfl⟩ := List.mem_iff_getElem.mp hc
    simp only [List.length_zipWith] at hi
    rw [List.getElem_zipWith, List.length_append, List.length_map, hdrl, hcomlen _ (List.getElem_mem _)]
  · simp
  · intro i hi
    obtain ⟨k, hk, rfl⟩ := List.mem_map.mp hi
    rw [List.mem_range] at hk
    constructor <;> omega
  · rfl
  · intro i hi
    obtain ⟨k, hk, rfl⟩ := List.mem_map.mp hi
    rw [List.mem_range] at hk
    simp only [List.length_map] at *
    constructor <;> omega

/-- **C79 (any way of naming the atoms), what holds.** Two or more frames, whose cells may change but have a volume, in any of the three
formats; the atoms are named by species, by species with a framework, or by number, and at least one is named; default bounds of the
intervals, at least one asked for, and a memory limit that admits `F²` windows: all three analyzers are built.  Missing: a framework
given as a tuple (C71), and for pymatgen a time step and step skip that are both integers (C19). -/
theorem C79_selection_partial (E : Num K) (P : Params K) (S : Select K) (sy : List String) (atoms fw : List ℕ) (hS : Picks S sy atoms fw)
    (hne : atoms ≠ []) (ht : ∀ f, S.framework = some f → f.isTuple = false) (hP : DefaultGrid E P) (hn : 1 ≤ P.nSteps) (F : ℕ) (hF : 2 ≤ F)
    (C : ℕ → M3 K) (hC : ∀ j < F, NonSingular (C j)) (V : ℕ → K) (s : ℕ → ℕ → V3 K)
    (hmem : ((3 * atoms.length * F * F * P.itemsize : ℕ) : K) ≤ P.memoryLimit * 10 ^ 9)
    (base : PyM (Base K)) (unit : K) (hbase : ReadFrames E P S (cellFrames F sy C V s) (cellUniverse F sy C V s) base unit)
    (hi : unit = 1000 → (P.timeStep.isInt && P.stepSkip.isInt) = false) (sq : K → K) (o : Oracle K G) (g : G) (U : UncParams K)
    (ho : StatisticsRun o U.opt) (hsub : 1 ≤ U.sub) (hd : U.dimension.toLower ∈ acceptedDims) :
    AllAnalyzed atoms.length sq o g U base := by
  have hU := cellUniverse_ok (sy := sy) hC (V := V) (s := s)
  obtain ⟨f0, rest, hw, hlen, hall⟩ := cellFrames_cons hF sy C V s
  rw [hw] at hbase hU
  subst hlen
  obtain ⟨B, hB, hu⟩ := frames_ok (hP.onGrid hn hF (List.length_pos_iff.mpr hne)) ((defaultGrid_mul hP).onGrid hn hF (List.length_pos_iff.mpr hne))
    (List.length_pos_iff.mpr hne)
    (picks_selects hS hne ht fun f hf => ⟨(hall f hf).1, (hall f hf).2.1⟩)
    (fun f hf => by obtain ⟨j, hj, he⟩ := (hall f hf).2.2; rw [he]; exact hC j hj) hmem hU hbase hi
  exact allAnalyzed_of_usable hu hB ho hsub hd

/-- **C79 (molecules), what holds.** The same for molecules of equal size, with masses of non-zero sum if any; a framework, if it is
given, is not empty.  Missing: an explicitly empty framework raises (C21), and for pymatgen two integers (C19). -/
theorem C79_molecules_partial (E : Num K) (P : Params K) (S : Select K) (sy : List String) (mols : List (List ℕ)) (fw : List ℕ)
    (hS : PicksMolecules S sy mols fw) (hne : mols ≠ []) (len : ℕ) (hl1 : 1 ≤ len) (hlen : ∀ mol ∈ mols, mol.length = len)
    (hmass : ∀ w, S.masses = some w → w.length = len ∧ w.sum ≠ 0) (hfw : S.framework ≠ none → fw ≠ [])
    (hP : DefaultGrid E P) (hn : 1 ≤ P.nSteps) (F : ℕ) (hF : 2 ≤ F)
    (C : ℕ → M3 K) (hC : ∀ j < F, NonSingular (C j)) (V : ℕ → K) (s : ℕ → ℕ → V3 K)
    (hmem : ((3 * mols.length * F * F * P.itemsize : ℕ) : K) ≤ P.memoryLimit * 10 ^ 9)
    (base : PyM (Base K)) (unit : K) (hbase : ReadFrames E P S (cellFrames F sy C V s) (cellUniverse F sy C V s) base unit)
    (hi : unit = 1000 → (P.timeStep.isInt && P.stepSkip.isInt) = false) (sq : K → K) (o : Oracle K G) (g : G) (U : UncParams K)
    (ho : StatisticsRun o U.opt) (hsub : 1 ≤ U.sub) (hd : U.dimension.toLower ∈ acceptedDims) :
    AllAnalyzed mols.length sq o g U base := by
  have hU := cellUniverse_ok (sy := sy) hC (V := V) (s := s)
  obtain ⟨f0, rest, hw, hlen', hall⟩ := cellFrames_cons hF sy C V s
  rw [hw] at hbase hU
  subst hlen'
  obtain ⟨B, hB, hu⟩ := frames_ok (hP.onGrid hn hF (List.length_pos_iff.mpr hne)) ((defaultGrid_mul hP).onGrid hn hF (List.length_pos_iff.mpr hne))
    (List.length_pos_iff.mpr hne)
    (molecules_selects hS hne hl1 hlen hmass hfw fun f hf => ⟨(hall f hf).1, (hall f hf).2.1⟩)
    (fun f hf => by obtain ⟨j, hj, he⟩ := (hall f hf).2.2; rw [he]; exact hC j hj) hmem hU hbase hi
  exact allAnalyzed_of_usable hu hB ho hsub hd

/-! ### Examples -/

theorem exBox_nonsingular : NonSingular exBox := by
  unfold NonSingular
  rw [← det3_eq_det]
  show det3 exBox ≠ 0
  decide +kernel

/-- `C79_selection_partial` for atoms named by number and for a species with a framework; `C79_molecules_partial` for one molecule of two
atoms with masses 3 and 1: MDAnalysis, pymatgen and ASE. -/
example : AllAnalyzed 2 id exStrict 0 exUncAll (fromUniverse exNum exParams { exSelect with specie := none, specieIdx := .flat ⟨false, [2, 0]⟩ }
      1 1 none (.one (cellUniverse 5 ["Li", "O", "Li"] (fun _ => exBox) (fun _ => 1000) exTrue))) ∧
    AllAnalyzed 2 id exStrict 0 exUncAll (fromPymatgen exNum exParams { exSelect with framework := some ⟨false, [1]⟩ }
      1 none (.one (cellFrames 5 ["Li", "O", "Li"] (fun _ => exBox) (fun _ => 1000) exTrue))) ∧
    AllAnalyzed 1 id exStrict 0 exUncAll (fromAse exNum exParams ⟨none, .mols [[1, 2]], some [3, 1], none⟩
      1 none (.one (cellFrames 5 ["Li", "O", "Li"] (fun _ => exBox) (fun _ => 1000) exTrue))) := by
  refine ⟨?_, ?_, ?_⟩
  · exact C79_selection_partial exNum exParams _ ["Li", "O", "Li"] [2, 0] [1] (.numbers [2, 0] false rfl rfl rfl (by decide)) (by decide)
      (fun f h => by cases h) exGrid (by decide +kernel) 5 (by decide) _ (fun _ _ => exBox_nonsingular) _ _ (by decide +kernel) _ 1
      (.inr (.inr ⟨rfl, rfl⟩)) (by norm_num) id exStrict 0 exUncAll exUncAll_runs (by decide) (by decide +kernel)
  · exact C79_selection_partial exNum exParams _ ["Li", "O", "Li"] [0, 2] [1] (.framework ["Li"] [1] false rfl rfl (by decide)) (by decide)
      (fun f h => by cases h; rfl) exGrid (by decide +kernel) 5 (by decide) _ (fun _ _ => exBox_nonsingular) _ _ (by decide +kernel) _ 1000
      (.inr (.inl ⟨rfl, rfl⟩)) (fun _ => rfl) id exStrict 0 exUncAll exUncAll_runs (by decide) (by decide +kernel)
  · exact C79_molecules_partial exNum exParams _ ["Li", "O", "Li"] [[0, 1]] [2] ⟨rfl, rfl, by decide, .inl ⟨rfl, rfl⟩, by decide⟩ (by decide) 2
      (by decide) (by decide) (fun w h => by cases h; exact ⟨rfl, by norm_num⟩) (fun h => absurd rfl h) exGrid (by decide +kernel) 5 (by decide) _
      (fun _ _ => exBox_nonsingular) _ _ (by decide +kernel) _ 1 (.inl ⟨rfl, rfl⟩) (by norm_num) id exStrict 0 exUncAll exUncAll_runs
      (by decide) (by decide +kernel)

/-- A number type with the true trigonometric functions. -/
noncomputable def exNumT : Num ℝ := ⟨id, fun _ _ _ _ => 1, realTrig⟩

/-- One molecule of two atoms of mass 3 and 1; the third atom is the framework. -/
noncomputable def exMolSelect : Select ℝ := ⟨none, .mols [[1, 2]], some [3, 1], none⟩

/-- The molecule lies across a face of the cell and moves by a tenth of a cell per frame, the third atom rests. -/
noncomputable def exMolPath (i j : ℕ) : V3 ℝ := ![if i = 0 then 9 / 10 + j / 10 else if i = 1 then 11 / 10 + j / 10 else 1 / 2, 0, 0]

theorem exMolSelect_picks : PicksMolecules exMolSelect ["O", "H", "Li"] [[0, 1]] [2] := ⟨rfl, rfl, by decide, .inl ⟨rfl, rfl⟩, by decide⟩

theorem exMol_masses : ∀ mol ∈ [[0, 1]], GoodMasses mol.length exMolSelect.masses := by
  intro mol hm
  simp only [List.mem_singleton] at hm
  subst hm
  refine ⟨rfl, ?_⟩
  intro w hw
  simp only [List.mem_cons, List.not_mem_nil, or_false] at hw
  rcases hw with rfl | rfl <;> norm_num

theorem exMol_compact : ∀ mol ∈ [[0, 1]], ∀ j < 3, ∀ k, Compact (mol.map fun a => exMolPath a j k) := by
  intro mol hm j _ k a ha b hb
  simp only [List.mem_singleton] at hm
  subst hm
  simp only [List.map_cons, List.map_nil, List.mem_cons, List.not_mem_nil, or_false] at ha hb
  fin_cases k <;> rcases ha with rfl | rfl <;> rcases hb with rfl | rfl <;> simp [exMolPath] <;> norm_num

theorem exMol_half : ∀ i < [[0, 1]].length + [2].length, ∀ j, j + 1 < 3 →
    HalfCell fun k => particles exMolSelect.masses exMolPath [[0, 1]] [2] i (j + 1) k - particles exMolSelect.masses exMolPath [[0, 1]] [2] i j k := by
  intro i hi j hj k
  have hj : j < 2 := by omega
  simp only [List.length_cons, List.length_nil] at hi
  interval_cases i <;> interval_cases j <;> fin_cases k <;> simp [particles, centre, wmean, exMolPath, exMolSelect] <;> norm_num

/-- The hypotheses of the three theorems C102 are met, and the runs they speak of exist. -/
example : ∃ Z, diffusionAnalyzer id (exOracle ℝ) () exUncR (fromAse exNumT exParamsR exMolSelect 1 none
      (.one (wrapped 3 ["O", "H", "Li"] exCube 1 exMolPath fun _ _ _ => 0))) = .ok (Z, ()) ∧ Z.volume = some 1 ∧ ∃ taus,
      Z.diff.n = (resolved 1 3 taus).map (reportedMsd (axesOf exUncR.dimension) exCube (particles (some [3, 1]) exMolPath [[0, 1]] [2])
        [1] [0] 3) := by
  obtain ⟨⟨Z, ⟨⟩, hZ, -⟩, -⟩ := C79_molecules_partial exNumT exParamsR exMolSelect ["O", "H", "Li"] [[0, 1]] [2] exMolSelect_picks (by decide) 2
    (by decide) (by decide) (fun w h => by cases h; exact ⟨rfl, by norm_num⟩) (fun h => absurd rfl h)
    (show DefaultGrid exNumT exParamsR from ⟨rfl, exGridR.2⟩) (by decide) 3 (by decide) (fun _ => exCube) (fun _ _ => exCube_nonsingular)
    (fun _ => 1) (fun i j k => exMolPath i j k + ((0 : ℤ) : ℝ)) (by norm_num [exParamsR]) _ 1 (.inl ⟨rfl, rfl⟩) (by norm_num) id (exOracle ℝ) ()
    exUncR ⟨fun h => (by cases h), fun h => by cases h⟩ (by decide) (by decide +kernel)
  obtain ⟨taus, -, -, -, hv, hn, -⟩ := C102_msd exNumT rfl exParamsR exMolSelect ["O", "H", "Li"] [[0, 1]] [2] exMolSelect_picks
    ⟨rfl, exGridR.2⟩ 3 (by decide) exCube 1 exMolPath (fun _ _ _ => 0) exMol_masses exMol_compact exMol_half id (exOracle ℝ) exUncR rfl rfl () () Z _ 1
    (.inl ⟨rfl, rfl⟩) hZ
  exact ⟨Z, hZ, hv, taus, hn⟩

end Kinisi
