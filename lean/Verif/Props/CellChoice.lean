import Verif.Lemmas.Agree
import Verif.Props.Paths
import Verif.Props.Shortest
import Verif.Props.Fit
import Mathlib.Tactic.LinearCombination

/-!
# C114: the results depend on the motion, not on the cell vectors and images that describe it
-/

set_option linter.unusedSectionVars false
set_option linter.unusedVariables false

namespace Kinisi
open Spec
variable {K : Type} [Field K] [LinearOrder K] [IsStrictOrderedRing K] [FloorRing K] {G : Type}

/-- The selection is not one of centres of molecules. -/
def NoMolecules (S : Select K) : Prop := S.specie ≠ none ∨ ∀ ms, S.specieIdx ≠ .mols ms

theorem select_free {S : Select K} (hS : NoMolecules S) (sy : List String) :
    ∃ x : PyM Selection, ∀ (tr : Trig K) coords, selectAtoms tr sy coords S = x.map fun sel => (coords, sel) := by
  unfold selectAtoms
  cases h : S.specie with
  | some sp =>
    refine ⟨getIndices sy sp S.framework, fun tr coords => ?_⟩
    dsimp only
    cases getIndices sy sp S.framework <;> rfl
  | none =>
    have hm := hS.resolve_left (by simp [h])
    cases h' : S.specieIdx with
    | none => exact ⟨.error .typeError, fun _ _ => rfl⟩
    | flat s =>
      dsimp only
      split_ifs
      · exact ⟨.error .indexError, fun _ _ => rfl⟩
      · refine ⟨getFramework sy.length s.vals S.framework, fun tr coords => ?_⟩
        cases getFramework sy.length s.vals S.framework <;> rfl
    | mols ms => exact absurd h' (hm ms)

/-- The displacements that the code finds for a stored motion are those of the motion. -/
theorem getDisp_stored {F n : ℕ} {C : ℕ → M3 K} (hC : ∀ j < F, NonSingular (C j)) {s x : ℕ → ℕ → V3 K} (hs : StoredIn F n C s x) (hF : 0 < F) :
    ∃ w a, getDisp (frames (F + 1) n fun j i => s i (j - 1)) (cells (F + 1) fun j => C (j - 1)) = .ok (w, a) ∧ a.n0 = n ∧ a.n1 = F ∧
      ∀ i < n, ∀ j < F, ∀ l, a.get i j l = x i j l - x i 0 l := by
  obtain ⟨w, a, h, h0, h1, step, hst, hg⟩ := C02_steps_are_minimum_images (F + 1) n (by omega) (fun j i => s i (j - 1)) (fun j => C (j - 1))
    (fun j hj => hC _ (by omega))
  refine ⟨w, a, h, h0, h1, fun i hi j => ?_⟩
  induction j with
  | zero =>
    intro hj l
    rw [hg i hi 0 (by omega) l, Finset.sum_range_one]
    have hm := hst i hi 0 (by omega)
    have : MinImage (C 0) (fun l => cart (C 0) (s i 0) l - cart (C 0) (s i 0) l) (0 : V3 K) := by
      refine ⟨⟨0, fun l => by simp [cart]⟩, 0, fun k => ?_, ?_⟩
      · constructor <;> simp
      · funext l; simp [cart]
    rw [C02_minimum_image_unique _ (hC 0 hF) _ _ _ hm this]
    simp
  | succ j ih =>
    intro hj l
    have hm := hst i hi (j + 1) (by omega)
    obtain ⟨⟨h, hh, hx⟩, c, hc⟩ := hs i hi j hj
    have htrue : MinImage (C (j + 1)) (fun l => cart (C (j + 1)) (s i (j + 1)) l - cart (C j) (s i j) l) (fun l => x i (j + 1) l - x i j l) := by
      refine ⟨⟨fun k => -c k, fun l => ?_⟩, h, hh, funext hx⟩
      dsimp only
      rw [hc]
      simp only [cart, Fin.sum_univ_three]
      push_cast
      ring
    have h2 := C02_minimum_image_unique _ (hC (j + 1) hj) _ _ _ hm htrue
    have h3 := ih (by omega) l
    rw [hg i hi j (by omega) l] at h3
    rw [hg i hi (j + 1) (by omega) l, Finset.sum_range_succ, h3, h2]
    ring

theorem buildParser_cells (E : Num K) (P : Params K) {S : Select K} (hS : NoMolecules S) {sy : List String} {F : ℕ} (hF : 0 < F) {C C' : ℕ → M3 K}
    (hC : ∀ j < F, NonSingular (C j)) (hC' : ∀ j < F, NonSingular (C' j)) {V V' : ℕ → K} (hV : V 0 = V' 0) {s s' x : ℕ → ℕ → V3 K}
    (hs : StoredIn F sy.length C s x) (hs' : StoredIn F sy.length C' s' x) :
    (structureCoordsLatt (cellFrames F sy C V s) >>= fun p => buildParser E P S p.1 p.2.1 p.2.2).map shownBase =
      (structureCoordsLatt (cellFrames F sy C' V' s') >>= fun p => buildParser E P S p.1 p.2.1 p.2.2).map shownBase := by
  have key : ∀ (C : ℕ → M3 K) (V : ℕ → K) (s : ℕ → ℕ → V3 K), structureCoordsLatt (cellFrames F sy C V s) =
      .ok (⟨sy, (List.range sy.length).map fun i => s i 0, C 0, V 0⟩, frames (F + 1) sy.length fun j i => s i (j - 1), cells (F + 1) fun j => C (j - 1)) := by
    intro C V s
    obtain ⟨m, rfl⟩ : ∃ m, F = m + 1 := ⟨F - 1, by omega⟩
    unfold structureCoordsLatt cellFrames frames cells
    rw [List.range_succ_eq_map (n := m + 1), List.range_succ_eq_map (n := m)]
    simp [Function.comp_def]
  obtain ⟨sel, hsel⟩ := select_free hS sy
  obtain ⟨w, a, h, a0, a1, ag⟩ := getDisp_stored hC hs hF
  obtain ⟨w', a', h', a0', a1', ag'⟩ := getDisp_stored hC' hs' hF
  have hcl : clip a = clip a' := by
    rw [clip_eq_iff]
    refine ⟨a0.trans a0'.symm, a1.trans a1'.symm, fun i hi k hk => ?_⟩
    funext l
    rw [ag i (a0 ▸ hi) k (a1 ▸ hk), ag' i (a0 ▸ hi) k (a1 ▸ hk)]
  rw [key, key]
  simp only [bind, Except.bind, buildParser, hsel]
  cases sel with
  | error e => rfl
  | ok sel =>
  simp only [Except.map, h, h']
  have hp := parserInit_clip E P w w' hcl sel
  rcases map_eq_cases hp with ⟨e, e1, e2⟩ | ⟨r, r', e1, e2, hr⟩
  · rw [e1, e2]
  · rw [e1, e2]
    simp only [shownBase, clipBase, baseOf, Prod.mk.injEq, Base.mk.injEq] at hr ⊢
    obtain ⟨⟨r1, r2, r3, -⟩, r5⟩ := hr
    simp only [r1, r2, r3, r5, hV]

theorem thin_frames {F k : ℕ} (hk : 0 < k) (sy : List String) (C : ℕ → M3 K) (V : ℕ → K) (s : ℕ → ℕ → V3 K) :
    pyStride (k : ℤ) (cellFrames F sy C V s) = .ok (cellFrames ((F + k - 1) / k) sy (fun j => C (k * j)) (fun j => V (k * j)) fun i j => s i (k * j)) := by
  unfold pyStride
  rw [if_neg (by omega), if_pos (by omega), Int.toNat_natCast]
  congr 1
  have hl : (stride k (cellFrames F sy C V s)).length = (F + k - 1) / k := by rw [stride_length k hk]; simp [cellFrames]
  apply List.ext_getElem?
  intro i
  by_cases hi : i < (F + k - 1) / k
  · have h2 : k * i < F := by
      have h3 : (i + 1) * k ≤ F + k - 1 := (Nat.le_div_iff_mul_le hk).mp hi
      have h4 : (i + 1) * k = k * i + k := by ring
      omega
    rw [stride_getElem? k hk]
    simp [cellFrames, hi, h2]
  · rw [List.getElem?_eq_none (by omega), List.getElem?_eq_none (by simpa [cellFrames] using hi)]

theorem thin_universe {F k : ℕ} (hk : 0 < k) (sy : List String) (C : ℕ → M3 K) (V : ℕ → K) (s : ℕ → ℕ → V3 K) :
    pyStride (k : ℤ) (cellUniverse F sy C V s).2 =
      .ok (cellUniverse ((F + k - 1) / k) sy (fun j => C (k * j)) (fun j => V (k * j)) fun i j => s i (k * j)).2 := by
  unfold pyStride
  rw [if_neg (by omega), if_pos (by omega), Int.toNat_natCast]
  congr 1
  have hl : (stride k (cellUniverse F sy C V s).2).length = (F + k - 1) / k := by rw [stride_length k hk]; simp [cellUniverse]
  apply List.ext_getElem?
  intro i
  by_cases hi : i < (F + k - 1) / k
  · have h2 : k * i < F := by
      have h3 : (i + 1) * k ≤ F + k - 1 := (Nat.le_div_iff_mul_le hk).mp hi
      have h4 : (i + 1) * k = k * i + k := by ring
      omega
    rw [stride_getElem? k hk]
    simp [cellUniverse, hi, h2]
  · rw [List.getElem?_eq_none (by omega), List.getElem?_eq_none (by simpa [cellUniverse] using hi)]

theorem universe_reads {F : ℕ} {sy : List String} {C : ℕ → M3 K} (hC : ∀ j < F, NonSingular (C j)) {V : ℕ → K} {s : ℕ → ℕ → V3 K} :
    (cellUniverse F sy C V s).2.mapM (mdaFrame sy 1) = .ok (cellFrames F sy C V s) := by
  obtain ⟨fr, h, -⟩ : ∃ fr, (cellUniverse F sy C V s).2.mapM (mdaFrame sy 1) = .ok fr ∧ True := by
    refine ⟨_, mapM_except_ok (g := fun f : MdaFrame K => ⟨sy, f.pos.map fun x => vm x (invFun f.latt), f.latt, f.volume⟩) _ _ ?_, trivial⟩
    intro f hf
    obtain ⟨j, hj, rfl⟩ := List.mem_map.mp hf
    unfold mdaFrame
    have hd : det3 (C j) ≠ 0 := by rw [det3_eq_det]; exact hC j (by simpa using hj)
    simp only [pyStride_one, bind, Except.bind, inv3_ok hd]
  rw [h, cellUniverse_frames h]

/-- Two trajectories, described by the cells `C` and `C'` and the fractional coordinates `s` and `s'`, read from files of the same format, every
`k`-th frame. -/
def ReadBoth (E : Num K) (P : Params K) (S : Select K) (k F : ℕ) (sy : List String) (C C' : ℕ → M3 K) (V V' : ℕ → K) (s s' : ℕ → ℕ → V3 K)
    (base base' : PyM (Base K)) : Prop :=
  base = fromAse E P S k none (.one (cellFrames F sy C V s)) ∧ base' = fromAse E P S k none (.one (cellFrames F sy C' V' s')) ∨
  base = fromPymatgen E P S k none (.one (cellFrames F sy C V s)) ∧ base' = fromPymatgen E P S k none (.one (cellFrames F sy C' V' s')) ∨
  base = fromUniverse E P S 1 k none (.one (cellUniverse F sy C V s)) ∧ base' = fromUniverse E P S 1 k none (.one (cellUniverse F sy C' V' s'))

theorem base_cells (E : Num K) (P : Params K) {S : Select K} (hS : NoMolecules S) {sy : List String} {k F : ℕ} (hk : 0 < k) (hF : 0 < F) {C C' : ℕ → M3 K}
    (hC : ∀ j, k * j < F → NonSingular (C (k * j))) (hC' : ∀ j, k * j < F → NonSingular (C' (k * j))) {V V' : ℕ → K} (hV : V 0 = V' 0) {s s' x : ℕ → ℕ → V3 K}
    (hs : StoredIn ((F + k - 1) / k) sy.length (fun j => C (k * j)) (fun i j => s i (k * j)) (fun i j => x i (k * j)))
    (hs' : StoredIn ((F + k - 1) / k) sy.length (fun j => C' (k * j)) (fun i j => s' i (k * j)) (fun i j => x i (k * j))) {base base' : PyM (Base K)}
    (hb : ReadBoth E P S k F sy C C' V V' s s' base base') : base.map clipBase = base'.map clipBase := by
  have hF' : 0 < (F + k - 1) / k := Nat.div_pos (by omega) hk
  have hlt : ∀ j < (F + k - 1) / k, k * j < F := by
    intro j hj
    have h3 : (j + 1) * k ≤ F + k - 1 := (Nat.le_div_iff_mul_le hk).mp hj
    have h4 : (j + 1) * k = k * j + k := by ring
    omega
  have main := fun P => buildParser_cells E P hS hF' (C := fun j => C (k * j)) (C' := fun j => C' (k * j)) (fun j hj => hC j (hlt j hj)) (fun j hj => hC' j (hlt j hj))
    (V := fun j => V (k * j)) (V' := fun j => V' (k * j)) (by simpa using hV) hs hs'
  rcases hb with ⟨rfl, rfl⟩ | ⟨rfl, rfl⟩ | ⟨rfl, rfl⟩
  · simp only [fromAse, analyzerFrom, Traj.asOne, aseParser, thin_frames hk, bind, Except.bind]
    rcases map_eq_cases (main P) with ⟨e, e1, e2⟩ | ⟨r, r', e1, e2, hr⟩ <;> simp only [bind, Except.bind] at e1 e2 <;> rw [e1, e2]
    exact congrArg Except.ok (Prod.mk.inj hr).1
  · simp only [fromPymatgen, analyzerFrom, Traj.asOne, pymatgenParser, thin_frames hk, bind, Except.bind]
    generalize P.stepSkip.mul E.fl (.int (k : ℤ)) = ss
    rcases map_eq_cases (main { P with stepSkip := ss }) with ⟨e, e1, e2⟩ | ⟨r, r', e1, e2, hr⟩
    · cases hx : structureCoordsLatt (cellFrames ((F + k - 1) / k) sy (fun j => C (k * j)) (fun j => V (k * j)) fun i j => s i (k * j)) <;>
        cases hy : structureCoordsLatt (cellFrames ((F + k - 1) / k) sy (fun j => C' (k * j)) (fun j => V' (k * j)) fun i j => s' i (k * j)) <;>
        rw [hx] at e1 <;> rw [hy] at e2 <;> simp only [bind, Except.bind] at e1 e2 ⊢
      · rw [Except.error.inj e1, Except.error.inj e2]
      · rw [Except.error.inj e1, e2]
      · rw [e1, Except.error.inj e2]
      · rw [e1, e2]
    · cases hx : structureCoordsLatt (cellFrames ((F + k - 1) / k) sy (fun j => C (k * j)) (fun j => V (k * j)) fun i j => s i (k * j)) <;>
        cases hy : structureCoordsLatt (cellFrames ((F + k - 1) / k) sy (fun j => C' (k * j)) (fun j => V' (k * j)) fun i j => s' i (k * j)) <;>
        rw [hx] at e1 <;> rw [hy] at e2 <;> simp only [bind, Except.bind] at e1 e2 ⊢
      · cases e1
      · cases e1
      · cases e2
      · rw [e1, e2]
        obtain ⟨hr1, hr2⟩ := Prod.mk.inj hr
        dsimp only
        rw [hr2]
        split_ifs
        · rfl
        · simp only [clipBase, baseOf, Base.mk.injEq] at hr1
          obtain ⟨r1, r2, r3, r4⟩ := hr1
          simp only [Except.map, clipBase, baseOf, r1, r2, r3, r4]
  · simp only [fromUniverse, analyzerFrom, Traj.asOne, mdaParser, thin_universe hk, bind, Except.bind, ne_eq, not_true_eq_false, decide_false, Bool.false_and,
      Bool.false_eq_true, if_false]
    have u1 := universe_reads (F := (F + k - 1) / k) (sy := sy) (C := fun j => C (k * j)) (fun j hj => hC j (hlt j hj)) (V := fun j => V (k * j)) (s := fun i j => s i (k * j))
    have u2 := universe_reads (F := (F + k - 1) / k) (sy := sy) (C := fun j => C' (k * j)) (fun j hj => hC' j (hlt j hj)) (V := fun j => V' (k * j)) (s := fun i j => s' i (k * j))
    rw [show (cellUniverse F sy C V s).1 = sy from rfl, show (cellUniverse F sy C' V' s').1 = sy from rfl, u1, u2]
    dsimp only
    generalize P.stepSkip.mul E.fl (.int (k : ℤ)) = ss
    rcases map_eq_cases (main { P with stepSkip := ss }) with ⟨e, e1, e2⟩ | ⟨r, r', e1, e2, hr⟩ <;> simp only [bind, Except.bind] at e1 e2 <;> rw [e1, e2]
    exact congrArg Except.ok (Prod.mk.inj hr).1

/-- **C114, what holds.** The Cartesian motion `x` is stored twice: with the cells `C` and the fractional coordinates `s`, and with the cells `C'`
and the coordinates `s'` (other lattice vectors, other images, cells that change or not).  If in both descriptions every step between kept frames is
within half of the cell, then every analyzer yields the same result, or the same exception, for both: all attributes are equal (of the displacement
arrays, everything inside their shape), and so is the state of the random generator afterwards.  This holds for all options of the parser and of the
bootstrap.  Missing for the full property: longer steps, see `C114_violated`. -/
theorem C114_partial (E : Num K) (P : Params K) (S : Select K) (hS : NoMolecules S) (sy : List String) (k F : ℕ) (hk : 0 < k) (hF : 0 < F) (C C' : ℕ → M3 K)
    (hC : ∀ j, k * j < F → NonSingular (C (k * j))) (hC' : ∀ j, k * j < F → NonSingular (C' (k * j))) (V V' : ℕ → K) (hV : V 0 = V' 0) (s s' x : ℕ → ℕ → V3 K)
    (hs : StoredIn ((F + k - 1) / k) sy.length (fun j => C (k * j)) (fun i j => s i (k * j)) (fun i j => x i (k * j)))
    (hs' : StoredIn ((F + k - 1) / k) sy.length (fun j => C' (k * j)) (fun i j => s' i (k * j)) (fun i j => x i (k * j))) (base base' : PyM (Base K))
    (hb : ReadBoth E P S k F sy C C' V V' s s' base base') (sq : K → K) (o : Oracle K G) (U : UncParams K) (q : Charge K) (g : G) :
    (diffusionAnalyzer sq o g U base).map clipResult = (diffusionAnalyzer sq o g U base').map clipResult ∧
    (jumpAnalyzer sq o g U base).map clipResult = (jumpAnalyzer sq o g U base').map clipResult ∧
    (conductivityAnalyzer sq o g U q base).map clipResult = (conductivityAnalyzer sq o g U q base').map clipResult := by
  have h := base_cells E P hS hk hF hC hC' hV hs hs' hb
  simp only [diffusion_clip, jump_clip, conductivity_clip, h, and_self]

/-- **C114, what holds (curves).** In particular the curves with their variances, the times, the numbers of independent observations and the
non-Gaussian parameters are equal. -/
theorem C114_curves_partial (E : Num K) (P : Params K) (S : Select K) (hS : NoMolecules S) (sy : List String) (k F : ℕ) (hk : 0 < k) (hF : 0 < F)
    (C C' : ℕ → M3 K) (hC : ∀ j, k * j < F → NonSingular (C (k * j))) (hC' : ∀ j, k * j < F → NonSingular (C' (k * j))) (V V' : ℕ → K) (hV : V 0 = V' 0)
    (s s' x : ℕ → ℕ → V3 K)
    (hs : StoredIn ((F + k - 1) / k) sy.length (fun j => C (k * j)) (fun i j => s i (k * j)) (fun i j => x i (k * j)))
    (hs' : StoredIn ((F + k - 1) / k) sy.length (fun j => C' (k * j)) (fun i j => s' i (k * j)) (fun i j => x i (k * j))) (base base' : PyM (Base K))
    (hb : ReadBoth E P S k F sy C C' V V' s s' base base') (sq : K → K) (o : Oracle K G) (U : UncParams K) (g g' : G) (Z : Analyzer K)
    (h : diffusionAnalyzer sq o g U base = .ok (Z, g')) :
    ∃ Z', diffusionAnalyzer sq o g U base' = .ok (Z', g') ∧ Z'.diff.dt = Z.diff.dt ∧ Z'.diff.n = Z.diff.n ∧ Z'.diff.v = Z.diff.v ∧ Z'.diff.s = Z.diff.s ∧
      Z'.diff.nO = Z.diff.nO ∧ Z'.diff.ngp = Z.diff.ngp ∧ Z'.diff.euclid = Z.diff.euclid ∧ Z'.diff.distributions = Z.diff.distributions ∧ Z'.volume = Z.volume := by
  obtain ⟨h1, -, -⟩ := C114_partial E P S hS sy k F hk hF C C' hC hC' V V' hV s s' x hs hs' base base' hb sq o U (.scalar 1) g
  rcases map_eq_cases h1 with ⟨e, e1, -⟩ | ⟨⟨Y, y⟩, ⟨Z', z'⟩, e1, e2, he⟩
  · rw [h] at e1; cases e1
  · rw [h] at e1
    obtain ⟨rfl, rfl⟩ := Prod.mk.inj (Except.ok.inj e1)
    obtain ⟨hz, hg⟩ := Prod.mk.inj he
    dsimp only at hz hg
    subst hg
    have hd : clipBoot Z.diff = clipBoot Z'.diff := congrArg Analyzer.diff hz
    have hv : (clipBase Z.toBase).volume = (clipBase Z'.toBase).volume := congrArg Base.volume (congrArg Analyzer.toBase hz)
    refine ⟨Z', e2, ?_, ?_, ?_, ?_, ?_, ?_, ?_, ?_, hv.symm⟩
    · exact (congrArg Boot.dt hd).symm
    · exact (congrArg Boot.n hd).symm
    · exact (congrArg Boot.v hd).symm
    · exact (congrArg Boot.s hd).symm
    · exact (congrArg Boot.nO hd).symm
    · exact (congrArg Boot.ngp hd).symm
    · exact (congrArg Boot.euclid hd).symm
    · exact (congrArg Boot.distributions hd).symm

/-- The lattice of `exSkew` with another choice of lattice vectors: the second vector less the first. -/
def exSkew' : M3 ℚ := ![![10, 0, 0], ![-4, 8, 0], ![0, 0, 10]]

/-- One Li atom that moves by (-3.6, 3.2, 0) per frame and an O atom at rest. -/
def exDiag : ℕ → ℕ → V3 ℚ := fun i j => if i = 0 then ![-(18 / 5) * (j : ℚ), 16 / 5 * (j : ℚ), 0] else 0

/-- One Li atom that moves by (1, 0.8, 0) per frame and an O atom at rest. -/
def exSlow : ℕ → ℕ → V3 ℚ := fun i j => if i = 0 then ![(j : ℚ), 4 / 5 * (j : ℚ), 0] else 0

/-- Fractional coordinates of a Cartesian path in a cell. -/
def inCell (L : M3 ℚ) (x : ℕ → ℕ → V3 ℚ) : ℕ → ℕ → V3 ℚ := fun i j => vm (x i j) (invFun L)

/-- **C114, the full property is violated.** The same lattice is spanned by other lattice vectors (`exSkew'` has the rows of `exSkew`, the first one
subtracted from the second), the Cartesian positions are the same, and the steps (length 4.8) are shorter than half of every edge of `exSkew` (length 10):
the MSD that is reported for one frame is 1024/25 with the one choice and 464/25 with the other. -/
theorem C114_violated :
    (∀ l, exSkew' 0 l = exSkew 0 l ∧ exSkew' 1 l = exSkew 1 l - exSkew 0 l ∧ exSkew' 2 l = exSkew 2 l) ∧
    (∀ j, j < 5 → ∀ i, i < 2 → cart exSkew (inCell exSkew exDiag i j) = exDiag i j ∧ cart exSkew' (inCell exSkew' exDiag i j) = exDiag i j) ∧
    (∀ j, j < 4 → ∀ k, 4 * norm2 (fun l => exDiag 0 (j + 1) l - exDiag 0 j l) < norm2 (exSkew k)) ∧
    (diffusionAnalyzer id (exOracle ℚ) () exUnc (fromAse exNum exParams exSelect 1 none (.one
      (cellFrames 5 ["Li", "O"] (fun _ => exSkew) (fun _ => 800) (inCell exSkew exDiag))))).toOption.map (fun p => p.1.diff.n) =
        some [1024 / 25, 832 / 5] ∧
    (diffusionAnalyzer id (exOracle ℚ) () exUnc (fromAse exNum exParams exSelect 1 none (.one
      (cellFrames 5 ["Li", "O"] (fun _ => exSkew') (fun _ => 800) (inCell exSkew' exDiag))))).toOption.map (fun p => p.1.diff.n) =
        some [464 / 25, 377 / 5] := by
  refine ⟨by decide +kernel, by decide +kernel, by decide +kernel, by decide +kernel, by decide +kernel⟩

/-- A path in a fixed cell, each position stored in the image `m`. -/
theorem stored_fixed {F n : ℕ} {L : M3 K} (hL : det3 L ≠ 0) {x : ℕ → ℕ → V3 K} (m : ℕ → ℕ → Fin 3 → ℤ)
    (hx : ∀ i < n, ∀ j, j + 1 < F → HalfCell (vm (fun l => x i (j + 1) l - x i j l) (invFun L))) :
    StoredIn F n (fun _ => L) (fun i j => fun k => vm (x i j) (invFun L) k + (m i j k : K)) x := by
  intro i hi j hj
  refine ⟨⟨_, hx i hi j hj, fun l => (congrFun (vm_inv_right hL fun l => x i (j + 1) l - x i j l) l).symm⟩, fun k => m i j k - m i (j + 1) k, fun l => ?_⟩
  have h1 := congrFun (vm_inv_right hL (x i (j + 1))) l
  have h2 := congrFun (vm_inv_right hL (x i j)) l
  rw [vm, Fin.sum_univ_three] at h1 h2
  simp only [cart, Fin.sum_univ_three]
  push_cast
  linear_combination h1 - h2

/-- Every second of five frames, in the two cells, in the second with wandering images. -/
example (U : UncParams ℚ) : ∃ s' : ℕ → ℕ → V3 ℚ, s' 0 1 ≠ inCell exSkew' exSlow 0 1 ∧
    (diffusionAnalyzer id (exOracle ℚ) () U (fromPymatgen exNum exParams exSelect 2 none (.one (cellFrames 5 ["Li", "O"] (fun _ => exSkew) (fun _ => 800)
      (inCell exSkew exSlow))))).map clipResult =
    (diffusionAnalyzer id (exOracle ℚ) () U (fromPymatgen exNum exParams exSelect 2 none (.one (cellFrames 5 ["Li", "O"] (fun _ => exSkew') (fun _ => 800)
      s')))).map clipResult := by
  have hd : det3 exSkew ≠ 0 := by decide +kernel
  have hd' : det3 exSkew' ≠ 0 := by decide +kernel
  have e0 : inCell exSkew exSlow = fun i j => fun k => vm (exSlow i j) (invFun exSkew) k + (((0 : ℕ → ℕ → Fin 3 → ℤ) i j k : ℤ) : ℚ) := by
    funext i j k
    simp [inCell]
  refine ⟨fun i j => fun k => vm (exSlow i j) (invFun exSkew') k + (((j : ℤ) : ℤ) : ℚ), by decide +kernel, ?_⟩
  rw [e0]
  refine (C114_partial exNum exParams exSelect (.inl (by simp [exSelect])) ["Li", "O"] 2 5 (by norm_num) (by norm_num) (fun _ => exSkew) (fun _ => exSkew')
    (fun _ _ => by rw [nonSingular_iff]; exact hd) (fun _ _ => by rw [nonSingular_iff]; exact hd') (fun _ => 800) (fun _ => 800) rfl _ _ exSlow ?_ ?_ _ _
    (.inr (.inl ⟨rfl, rfl⟩)) id (exOracle ℚ) U (.scalar 1) ()).1
  · refine stored_fixed (F := 3) (n := 2) hd (x := fun i j => exSlow i (2 * j)) (fun _ _ _ => 0) fun i hi j hj => ?_
    have : j < 2 := by omega
    interval_cases i <;> interval_cases j <;> · unfold HalfCell; decide +kernel
  · refine stored_fixed (F := 3) (n := 2) hd' (x := fun i j => exSlow i (2 * j)) (fun _ j _ => ((2 * j : ℕ) : ℤ)) fun i hi j hj => ?_
    have : j < 2 := by omega
    interval_cases i <;> interval_cases j <;> · unfold HalfCell; decide +kernel

end Kinisi
