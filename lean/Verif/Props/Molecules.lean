import Verif.Props.Paths
import Mathlib.Data.List.Sort

/-!
# C102: the MSD of molecules, from the trajectory of their atoms
-/

set_option linter.unusedSectionVars false
set_option linter.unusedVariables false

namespace Kinisi
open Spec
variable {G : Type}

/-- The arguments name molecules by their atoms (numbered from one in the file, from zero here), and the framework either explicitly or as
all atoms outside the molecules. -/
structure PicksMolecules {K : Type} (S : Select K) (sy : List String) (mols : List (List ℕ)) (fw : List ℕ) : Prop where
  specie : S.specie = none
  idx : S.specieIdx = .mols (mols.map fun m => m.map fun a : ℕ => (a : ℤ) + 1)
  valid : ∀ m ∈ mols, ∀ a ∈ m, a < sy.length
  framework : (S.framework = none ∧ fw = (List.range sy.length).filter fun k => !mols.flatten.contains k) ∨
    ∃ t, S.framework = some ⟨t, fw.map fun k : ℕ => (k : ℤ) + 1⟩
  fwValid : ∀ k ∈ fw, k < sy.length

theorem atomOf_nat {n a : ℕ} : atomOf n (a : ℤ) = a := by
  unfold atomOf
  rw [if_neg (by omega)]
  simp

/-- **C24 along all axes.** Each component of the centre that `_get_molecules` computes is that of the true centre of mass, up to whole cells, and lies in the cell. -/
theorem C24_three_axes {masses : Option (List ℝ)} {c : List (V3 ℝ)} {mol : List ℕ} {y : ℕ → V3 ℝ} (hne : mol ≠ [])
    (hm : GoodMasses mol.length masses) (hc : ∀ k, Compact (mol.map fun a => y a k))
    (hi : ∀ a ∈ mol, ∀ k, ∃ z : ℤ, c.getD a 0 k = y a k + z) :
    ∃ v, moleculeCentre3 realTrig masses c mol = .ok v ∧ ∀ k, 0 ≤ v k ∧ v k < 1 ∧ ∃ z : ℤ, v k = wmean masses (mol.map fun a => y a k) + z := by
  have hs : ∀ k, SameImages (mol.map fun a => c.getD a 0 k) (mol.map fun a => y a k) := by
    intro k
    unfold SameImages
    rw [List.forall₂_map_left_iff, List.forall₂_map_right_iff]
    exact List.forall₂_same.mpr fun a ha => hi a ha k
  have hk : ∀ k, ∃ x, moleculeCentre realTrig masses (mol.map fun a => c.getD a 0 k) = .ok x ∧
      0 ≤ x ∧ x < 1 ∧ ∃ z : ℤ, x = wmean masses (mol.map fun a => y a k) + z := by
    intro k
    exact C24_centre_of_mass masses _ _ (by simpa using hne) (by simpa using hm) (hc k) (hs k)
  choose x hx hz using hk
  unfold moleculeCentre3
  simp only [hx, bind, Except.bind]
  refine ⟨_, rfl, fun k => ?_⟩
  have := hz k
  fin_cases k <;> exact this

/-- Two atoms on both sides of the cell boundary along x, with different coordinates along y and z. -/
example : ∃ v, moleculeCentre3 realTrig (some [1, 2]) [![19 / 20, 1 / 5, 2 / 5], ![1 / 10, 3 / 10, 7 / 10]] [0, 1] = .ok v ∧
    ∀ k, 0 ≤ v k ∧ v k < 1 ∧ ∃ z : ℤ, v k = wmean (some [1, 2]) ([0, 1].map fun a => (if a = 0 then ![-(1 / 20), 1 / 5, 2 / 5] else ![1 / 10, 3 / 10, 7 / 10] : V3 ℝ) k) + z := by
  refine C24_three_axes (by simp) ⟨rfl, by simp⟩ ?_ ?_
  · intro k
    fin_cases k <;> simp [Compact] <;> norm_num
  · intro a ha k
    simp only [List.mem_cons, List.not_mem_nil, or_false] at ha
    rcases ha with rfl | rfl
    · fin_cases k
      · exact ⟨1, by simp; norm_num⟩
      · exact ⟨0, by simp⟩
      · exact ⟨0, by simp⟩
    · exact ⟨0, by simp⟩

/-- The three components of the computed centre are those of the true centre, up to whole cells. -/
theorem centre3_true {masses : Option (List ℝ)} {c : List (V3 ℝ)} {mol : List ℕ} {y : ℕ → V3 ℝ} (hne : mol ≠ [])
    (hm : GoodMasses mol.length masses) (hc : ∀ k, Compact (mol.map fun a => y a k))
    (hi : ∀ a ∈ mol, ∀ k, ∃ z : ℤ, c.getD a 0 k = y a k + z) {v : V3 ℝ}
    (h : moleculeCentre3 realTrig masses c mol = .ok v) : ∃ z : Fin 3 → ℤ, v = fun k => wmean masses (mol.map fun a => y a k) + (z k : ℝ) := by
  obtain ⟨v', h1, h2⟩ := C24_three_axes hne hm hc hi
  obtain rfl := Except.ok.inj (h.symm.trans h1)
  choose _ _ z hz using h2
  exact ⟨z, funext hz⟩

theorem getMolecules_nonempty {K : Type} [Field K] [LinearOrder K] [IsStrictOrderedRing K] [FloorRing K] {tr : Trig K} {natoms : ℕ}
    {coords : List (List (V3 K))} {mols : List (List ℤ)} {masses : Option (List K)} {framework : Option PySeq}
    {r : List (List (V3 K)) × Selection} (h : getMolecules tr natoms coords mols masses framework = .ok r) : ∀ m ∈ mols, m ≠ [] := by
  unfold getMolecules at h
  dsimp only at h
  intro m hm he
  have key : (mols.all fun m => decide (m.length = (mols.headD []).length)) = true → (mols.headD []).length = 0 := by
    intro h1
    have h2 := (List.all_eq_true.mp h1) m hm
    rw [he] at h2
    exact (of_decide_eq_true h2).symm
  split_ifs at h with h1 h2 h3 h4
  · exact h4 (key (by rwa [Bool.not_eq_false] at h1))
  · exact h4 (key (by rwa [Bool.not_eq_false] at h1))

theorem molecules_follow {E : Num ℝ} (htr : E.trig = realTrig) {S : Select ℝ} {sy : List String} {mols : List (List ℕ)} {fw : List ℕ}
    (hS : PicksMolecules S sy mols fw) {F : ℕ} (hF : 2 ≤ F) {L : M3 ℝ} {V : ℝ} {u : ℕ → ℕ → V3 ℝ} {m : ℕ → ℕ → Fin 3 → ℤ}
    (hmass : ∀ mol ∈ mols, GoodMasses mol.length S.masses) (hcomp : ∀ mol ∈ mols, ∀ j < F, ∀ k, Compact (mol.map fun a => u a j k))
    (hstep : ∀ i < mols.length + fw.length, ∀ j, j + 1 < F →
      HalfCell fun k => particles S.masses u mols fw i (j + 1) k - particles S.masses u mols fw i j k) :
    ∃ f0 rest, wrapped F sy L V u m = f0 :: rest ∧ rest.length + 1 = F ∧ f0.volume = V ∧
      Follows E S f0 rest L (particles S.masses u mols fw) ((List.range fw.length).map fun i => mols.length + i) (List.range mols.length) := by
  obtain ⟨f0, rest, hw⟩ := wrapped_cons hF sy L V u m
  have hlen : (f0 :: rest).length = F := by rw [← hw]; simp [wrapped]
  have hlen' : rest.length + 1 = F := by simpa using hlen
  have hall : ∀ f ∈ f0 :: rest, f.symbols = sy ∧ f.latt = L ∧ f.volume = V := by
    rw [← hw]
    intro f hf
    unfold wrapped at hf
    obtain ⟨j, -, rfl⟩ := List.mem_map.mp hf
    exact ⟨rfl, rfl, rfl⟩
  have hc0 : f0.frac :: rest.map Frame.frac = (List.range F).map fun j => (List.range sy.length).map fun i => fun k => u i j k + (m i j k : ℝ) := by
    rw [← List.map_cons (f := Frame.frac), ← hw]
    simp [wrapped]
  refine ⟨f0, rest, hw, hlen', (hall f0 (by simp)).2.2, ?_⟩
  intro coords sel hsel
  rw [(hall f0 (by simp)).1, hc0, htr] at hsel
  unfold selectAtoms at hsel
  rw [hS.specie, hS.idx] at hsel
  dsimp only at hsel
  split_ifs at hsel with h0
  have hfwk := hS.framework
  generalize S.framework = fwk at hsel hfwk
  obtain ⟨drift, hd, h1, h2, h3, h4⟩ := C26_molecule_layout realTrig sy.length _ _ S.masses fwk coords sel hsel sy.length
    (by
      intro c hc
      obtain ⟨j, -, rfl⟩ := List.mem_map.mp hc
      simp) (by simp; omega)
  have hdrift : drift = fw.map fun k : ℕ => (k : ℤ) := by
    rcases hfwk with ⟨rfl, hfw⟩ | ⟨t, rfl⟩
    · dsimp only at hd
      obtain ⟨hd1, hd2⟩ := hd
      have hs2 : (fw.map fun k : ℕ => (k : ℤ)).Pairwise (· < ·) := by
        rw [List.pairwise_map, hfw]
        exact (List.pairwise_lt_range.sublist List.filter_sublist).imp fun h => by exact_mod_cast h
      refine hd1.eq_of_mem_iff hs2 fun i => ?_
      rw [hd2 i]
      constructor
      · rintro ⟨a, b, c⟩
        rw [List.mem_map]
        refine ⟨i.toNat, ?_, by omega⟩
        rw [hfw, List.mem_filter, List.mem_range]
        refine ⟨by omega, ?_⟩
        simp only [List.contains_eq_mem, Bool.not_eq_true', decide_eq_false_iff_not, List.mem_flatten, not_exists, not_and]
        intro mol hmol hmem
        exact c _ (List.mem_map.mpr ⟨mol, hmol, rfl⟩) (List.mem_map.mpr ⟨i.toNat, hmem, by omega⟩)
      · intro hi
        obtain ⟨k, hk, rfl⟩ := List.mem_map.mp hi
        rw [hfw, List.mem_filter, List.mem_range] at hk
        refine ⟨by omega, by exact_mod_cast hk.1, ?_⟩
        intro mol' hmol' hmem
        obtain ⟨mol, hmol, rfl⟩ := List.mem_map.mp hmol'
        obtain ⟨a, ha, he⟩ := List.mem_map.mp hmem
        have : a = k := by omega
        subst this
        simp only [List.contains_eq_mem, Bool.not_eq_true', decide_eq_false_iff_not, List.mem_flatten, not_exists, not_and] at hk
        exact hk.2 mol hmol ha
    · dsimp only at hd
      rw [hd, List.map_map]
      apply List.map_congr_left
      intro k _
      simp
  subst hdrift
  simp only [List.length_map] at h1 h2 h4
  refine ⟨h1, by rw [h2]; simp [Function.comp_def], ?_⟩
  rw [hlen']
  intro n p a4 a2 a5 a6
  have hn : n = mols.length + fw.length := by
    have hj : 0 < coords.length := by omega
    rw [← a4 _ (List.getElem_mem hj)]
    exact (h4 0 (by simp; omega) hj).1
  subst hn
  have hL : NonSingular L := a5 L (by rw [← (hall f0 (by simp)).2.1]; simp)
  have hLf : ∀ j < F, (f0.latt :: rest.map Frame.latt).getD j 0 = L := by
    intro j hj
    have : f0.latt :: rest.map Frame.latt = List.replicate F L := by
      rw [← hlen, ← List.map_const', ← List.map_cons (f := Frame.latt)]
      exact List.map_congr_left fun f hf => (hall f hf).2.1
    rw [this]
    simp [hj]
  have hex : ∀ i j, ∃ z : Fin 3 → ℤ, j < F → i < mols.length + fw.length →
      (coords.getD j []).getD i 0 = fun k => particles S.masses u mols fw i j k + (z k : ℝ) := by
    intro i j
    by_cases hj : j < F
    swap
    · exact ⟨0, fun h => absurd h hj⟩
    by_cases hi : i < mols.length + fw.length
    swap
    · exact ⟨0, fun _ h => absurd h hi⟩
    have hjc : j < coords.length := by omega
    obtain ⟨-, hmol, hfr⟩ := h4 j (by simpa using hj) hjc
    have hcj : coords.getD j [] = coords[j] := by rw [List.getD_eq_getElem?_getD, List.getElem?_eq_getElem hjc]; rfl
    simp only [List.getElem_map, List.getElem_range] at hmol hfr
    rw [hcj]
    by_cases him : i < mols.length
    · obtain ⟨v, hv, hvc⟩ := hmol i him
      have hmem := List.getElem_mem him
      rw [List.map_map] at hvc
      have hat : (mols[i].map ((fun a => atomOf sy.length (a - 1)) ∘ fun a : ℕ => (a : ℤ) + 1)) = mols[i] := by
        conv_rhs => rw [← List.map_id mols[i]]
        apply List.map_congr_left
        intro a _
        simp [atomOf_nat]
      rw [hat] at hvc
      have hne : mols[i] ≠ [] := by
        intro he
        rw [he] at hvc
        exact getMolecules_nonempty hsel _ (List.mem_map.mpr ⟨_, hmem, rfl⟩) (by rw [he]; rfl)
      obtain ⟨z, hz⟩ := centre3_true (y := fun a => u a j) hne (hmass _ hmem) (fun k => hcomp _ hmem j hj k) (fun a ha k => by
        refine ⟨m a j k, ?_⟩
        have := hS.valid _ hmem a ha
        simp [this]) hvc
      refine ⟨z, fun _ _ => ?_⟩
      rw [List.getD_eq_getElem?_getD, hv, Option.getD_some, hz]
      funext k
      unfold particles centre
      rw [if_pos him, List.getD_eq_getElem?_getD, List.getElem?_eq_getElem him]
      rfl
    · obtain ⟨-, v, hv, hv'⟩ := hfr (i - mols.length) (by omega)
      rw [show mols.length + (i - mols.length) = i by omega] at hv'
      rw [atomOf_nat] at hv
      have hlt := hS.fwValid _ (List.getElem_mem (l := fw) (n := i - mols.length) (by omega))
      simp [hlt] at hv
      refine ⟨m fw[i - mols.length] j, fun _ _ => ?_⟩
      rw [List.getD_eq_getElem?_getD, hv', Option.getD_some, ← hv]
      funext k
      unfold particles
      rw [if_neg him, List.getD_eq_getElem?_getD, List.getElem?_eq_getElem (by omega)]
      rfl
  choose z hz using hex
  refine ⟨?_, ?_, path_is_true hL hstep hLf (fun j hj i hi => hz i j hj hi) a6⟩
  · intro a ha
    obtain ⟨i, hi, rfl⟩ := List.mem_map.mp ha
    rw [List.mem_range] at hi
    omega
  · intro a ha
    rw [List.mem_range] at ha
    omega

theorem wrappedMda_frames {K : Type} [Field K] [LinearOrder K] [IsStrictOrderedRing K] [FloorRing K] {F : ℕ} (hF : 2 ≤ F) {sy : List String} {L : M3 K} {V : K} {u : ℕ → ℕ → V3 K}
    {m : ℕ → ℕ → Fin 3 → ℤ} {fr : List (Frame K)}
    (h : (wrappedMda F sy L V u m).2.mapM (mdaFrame (wrappedMda F sy L V u m).1 1) = .ok fr) : fr = wrapped F sy L V u m := by
  rw [show (wrappedMda F sy L V u m).1 = sy from rfl] at h
  by_cases hd : det3 L = 0
  · rw [singular_fails hF hd] at h; cases h
  · rw [universe_wrapped hd] at h
    exact (Except.ok.inj h).symm

theorem molecules_base {E : Num ℝ} (htr : E.trig = realTrig) {P : Params ℝ} {S : Select ℝ} {sy : List String} {mols : List (List ℕ)} {fw : List ℕ}
    (hS : PicksMolecules S sy mols fw) (hP : DefaultGrid E P) {F : ℕ} (hF : 2 ≤ F) {L : M3 ℝ} {V : ℝ} {u : ℕ → ℕ → V3 ℝ} {m : ℕ → ℕ → Fin 3 → ℤ}
    (hmass : ∀ mol ∈ mols, GoodMasses mol.length S.masses) (hcomp : ∀ mol ∈ mols, ∀ j < F, ∀ k, Compact (mol.map fun a => u a j k))
    (hstep : ∀ i < mols.length + fw.length, ∀ j, j + 1 < F →
      HalfCell fun k => particles S.masses u mols fw i (j + 1) k - particles S.masses u mols fw i j k)
    {base : PyM (Base ℝ)} {unit : ℝ} (hbase : ReadFrames E P S (wrapped F sy L V u m) (wrappedMda F sy L V u m) base unit) {B : Base ℝ}
    (hB : base = .ok B) :
    ∃ taus : List ℕ, TrueBase L V (particles S.masses u mols fw) ((List.range fw.length).map fun i => mols.length + i) (List.range mols.length) F
      P.nSteps (fun τ : ℕ => (τ : ℝ) * P.stepSkip.val * P.timeStep.val / unit) taus B := by
  obtain ⟨f0, rest, hw, hlen, hv, hf⟩ := molecules_follow (m := m) (V := V) (L := L) htr hS hF hmass hcomp hstep
  rw [hw] at hbase
  obtain ⟨taus, ht⟩ := frames_base hP hF hlen hf (fun fr h => (wrappedMda_frames hF h).trans hw) hbase hB
  rw [hv] at ht
  exact ⟨taus, ht⟩

/-- **C102 (MSD).** Molecules given by their atoms, in a fixed cell, in any file format and with any periodic images: if in every frame the
atoms of a molecule lie within less than half a cell of each other, and no centre and no framework atom moves by half a cell per frame, the
reported MSD is the average `reportedMsd` of squared displacements of the true centres of mass (of geometry, without masses), relative to
the mean of the framework atoms. -/
theorem C102_msd (E : Num ℝ) (htr : E.trig = realTrig) (P : Params ℝ) (S : Select ℝ) (sy : List String) (mols : List (List ℕ)) (fw : List ℕ)
    (hS : PicksMolecules S sy mols fw) (hP : DefaultGrid E P) (F : ℕ) (hF : 2 ≤ F) (L : M3 ℝ) (V : ℝ) (u : ℕ → ℕ → V3 ℝ)
    (m : ℕ → ℕ → Fin 3 → ℤ) (hmass : ∀ mol ∈ mols, GoodMasses mol.length S.masses)
    (hcomp : ∀ mol ∈ mols, ∀ j < F, ∀ k, Compact (mol.map fun a => u a j k))
    (hstep : ∀ i < mols.length + fw.length, ∀ j, j + 1 < F →
      HalfCell fun k => particles S.masses u mols fw i (j + 1) k - particles S.masses u mols fw i j k)
    (sq : ℝ → ℝ) (o : Oracle ℝ G) (U : UncParams ℝ) (hblock : U.opt.block = false) (hsub : U.sub = 1) (g g' : G) (Z : Analyzer ℝ)
    (base : PyM (Base ℝ)) (unit : ℝ) (hbase : ReadFrames E P S (wrapped F sy L V u m) (wrappedMda F sy L V u m) base unit)
    (h : diffusionAnalyzer sq o g U base = .ok (Z, g')) :
    ∃ taus : List ℕ, taus.Pairwise (· < ·) ∧ (∀ τ ∈ taus, 1 ≤ τ ∧ τ ≤ F) ∧
      ((F : ℤ) ≤ P.nSteps → taus = (List.range F).map fun i => i + 1) ∧ Z.volume = some V ∧
      Z.diff.n = (resolved mols.length F taus).map (reportedMsd (axesOf U.dimension) L (particles S.masses u mols fw)
        ((List.range fw.length).map fun i => mols.length + i) (List.range mols.length) F) ∧
      Z.diff.dt = (resolved mols.length F taus).map fun τ : ℕ => (τ : ℝ) * P.stepSkip.val * P.timeStep.val / unit := by
  obtain ⟨B, hB, rfl, hm⟩ := diffusion_inv h
  obtain ⟨taus, ht⟩ := molecules_base htr hS hP hF hmass hcomp hstep hbase hB
  have := msd_of_parsed ht hblock hsub hm
  rw [List.length_range] at this
  exact ⟨taus, ht.sorted, ht.range, ht.full, ht.volume, this⟩

/-- **C102 (MSTD, MSCD).** The same for the total displacement and, with one charge per molecule, for the charge displacement. -/
theorem C102_mstd (E : Num ℝ) (htr : E.trig = realTrig) (P : Params ℝ) (S : Select ℝ) (sy : List String) (mols : List (List ℕ)) (fw : List ℕ)
    (hS : PicksMolecules S sy mols fw) (hP : DefaultGrid E P) (F : ℕ) (hF : 2 ≤ F) (L : M3 ℝ) (V : ℝ) (u : ℕ → ℕ → V3 ℝ)
    (m : ℕ → ℕ → Fin 3 → ℤ) (hmass : ∀ mol ∈ mols, GoodMasses mol.length S.masses)
    (hcomp : ∀ mol ∈ mols, ∀ j < F, ∀ k, Compact (mol.map fun a => u a j k))
    (hstep : ∀ i < mols.length + fw.length, ∀ j, j + 1 < F →
      HalfCell fun k => particles S.masses u mols fw i (j + 1) k - particles S.masses u mols fw i j k)
    (sq : ℝ → ℝ) (o : Oracle ℝ G) (U : UncParams ℝ) (hblock : U.opt.block = false) (hsub : U.sub = 1) (g g' : G) (Z : Analyzer ℝ)
    (base : PyM (Base ℝ)) (unit : ℝ) (hbase : ReadFrames E P S (wrapped F sy L V u m) (wrappedMda F sy L V u m) base unit)
    (h : jumpAnalyzer sq o g U base = .ok (Z, g')) :
    ∃ taus half : List ℕ, taus.Pairwise (· < ·) ∧ (∀ τ ∈ taus, 1 ≤ τ ∧ τ ≤ F) ∧
      ((F : ℤ) ≤ P.nSteps → taus = (List.range F).map fun i => i + 1) ∧ Z.volume = some V ∧
      half = (resolved mols.length F taus).take ((resolved mols.length F taus).length / 2) ∧
      Z.diff.n = half.map (reportedTotal (axesOf U.dimension) L (particles S.masses u mols fw)
        ((List.range fw.length).map fun i => mols.length + i) (List.range mols.length) (fun _ => 1) F) ∧
      Z.diff.dt = half.map fun τ : ℕ => (τ : ℝ) * P.stepSkip.val * P.timeStep.val / unit := by
  obtain ⟨B, hB, rfl, hm⟩ := jump_inv h
  obtain ⟨taus, ht⟩ := molecules_base htr hS hP hF hmass hcomp hstep hbase hB
  have := mstd_of_parsed ht hblock hsub hm
  rw [List.length_range] at this
  exact ⟨taus, _, ht.sorted, ht.range, ht.full, ht.volume, rfl, this⟩

theorem C102_mscd (E : Num ℝ) (htr : E.trig = realTrig) (P : Params ℝ) (S : Select ℝ) (sy : List String) (mols : List (List ℕ)) (fw : List ℕ)
    (hS : PicksMolecules S sy mols fw) (hP : DefaultGrid E P) (F : ℕ) (hF : 2 ≤ F) (L : M3 ℝ) (V : ℝ) (u : ℕ → ℕ → V3 ℝ)
    (m : ℕ → ℕ → Fin 3 → ℤ) (hmass : ∀ mol ∈ mols, GoodMasses mol.length S.masses)
    (hcomp : ∀ mol ∈ mols, ∀ j < F, ∀ k, Compact (mol.map fun a => u a j k))
    (hstep : ∀ i < mols.length + fw.length, ∀ j, j + 1 < F →
      HalfCell fun k => particles S.masses u mols fw i (j + 1) k - particles S.masses u mols fw i j k)
    (sq : ℝ → ℝ) (o : Oracle ℝ G) (U : UncParams ℝ) (hblock : U.opt.block = false) (hsub : U.sub = 1) (g g' : G) (Z : Analyzer ℝ)
    (base : PyM (Base ℝ)) (unit : ℝ) (hbase : ReadFrames E P S (wrapped F sy L V u m) (wrappedMda F sy L V u m) base unit)
    (charge : Charge ℝ) (hq : ∀ l, charge = .array l → l.length = mols.length)
    (h : conductivityAnalyzer sq o g U charge base = .ok (Z, g')) :
    ∃ taus half : List ℕ, taus.Pairwise (· < ·) ∧ (∀ τ ∈ taus, 1 ≤ τ ∧ τ ≤ F) ∧
      ((F : ℤ) ≤ P.nSteps → taus = (List.range F).map fun i => i + 1) ∧ Z.volume = some V ∧
      half = (resolved mols.length F taus).take ((resolved mols.length F taus).length / 2) ∧
      Z.diff.n = half.map (reportedTotal Finset.univ L (particles S.masses u mols fw)
        ((List.range fw.length).map fun i => mols.length + i) (List.range mols.length) charge.of F) ∧
      Z.diff.dt = half.map fun τ : ℕ => (τ : ℝ) * P.stepSkip.val * P.timeStep.val / unit := by
  obtain ⟨B, hB, rfl, hm⟩ := conductivity_inv h
  obtain ⟨taus, ht⟩ := molecules_base htr hS hP hF hmass hcomp hstep hbase hB
  have := mscd_of_parsed ht (by simpa using hq) hblock hsub hm
  rw [List.length_range] at this
  exact ⟨taus, _, ht.sorted, ht.range, ht.full, ht.volume, rfl, this⟩

end Kinisi
