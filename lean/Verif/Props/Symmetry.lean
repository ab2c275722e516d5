import Verif.Lemmas.Symmetry
import Verif.Props.EndToEndTotal

/-!
# C81: symmetries of what the analyzers report
-/

set_option linter.unusedSectionVars false
set_option linter.unusedVariables false

namespace Kinisi
open Spec
variable {K : Type} [Field K] [LinearOrder K] [IsStrictOrderedRing K] [FloorRing K] {G : Type}

/-- Whenever both inputs are analysed, the curve of the second is that of the first with values times `c` and times times `k`: for the
diffusion, the jump-diffusion and the conductivity analyzer. -/
def Curves (c k : K) (sq : K → K) (o : Oracle K G) (U : UncParams K) (charge : Charge K) (base base' : PyM (Base K)) : Prop :=
  ∀ g₁ g₁' g₂ g₂' Z Z',
    (diffusionAnalyzer sq o g₁ U base = .ok (Z, g₁') → diffusionAnalyzer sq o g₂ U base' = .ok (Z', g₂') →
      Z'.diff.n = Z.diff.n.map (c * ·) ∧ Z'.diff.dt = Z.diff.dt.map (k * ·)) ∧
    (jumpAnalyzer sq o g₁ U base = .ok (Z, g₁') → jumpAnalyzer sq o g₂ U base' = .ok (Z', g₂') →
      Z'.diff.n = Z.diff.n.map (c * ·) ∧ Z'.diff.dt = Z.diff.dt.map (k * ·)) ∧
    (conductivityAnalyzer sq o g₁ U charge base = .ok (Z, g₁') → conductivityAnalyzer sq o g₂ U charge base' = .ok (Z', g₂') →
      Z'.diff.n = Z.diff.n.map (c * ·) ∧ Z'.diff.dt = Z.diff.dt.map (k * ·))

/-- In exact arithmetic the time intervals do not depend on the unit of time. -/
theorem intervals_scale {geo : ℤ → ℤ → ℕ → ℕ → K} {T : ℕ} {ts ss ts' ss' : PyNum K} {k : K} (hk : k ≠ 0)
    (h : ss'.val * ts'.val = k * (ss.val * ts.val)) (mn mx : Option K) {n : ℤ} {sp : String} :
    initTimeIntervals id geo T ts' ss' (mn.map (k * ·)) (mx.map (k * ·)) n sp = initTimeIntervals id geo T ts ss mn mx n sp := by
  have h2 : ∀ x, stepsOf id ts' ss' (k * x) = stepsOf id ts ss x := by
    intro x
    unfold stepsOf
    simp only [PyNum.val_mul_id, h, id, mul_eq_zero, hk, false_or]
    rw [mul_div_mul_left _ _ hk]
  have h3 : maxDtOf id T ts' ss' (mx.map (k * ·)) = k * maxDtOf id T ts ss mx := by
    cases mx with
    | none =>
      simp only [Option.map_none, maxDtOf, PyNum.val_mul_id, h]
      ring
    | some x => rfl
  have h4 : minDtOf id ts' ss' (mn.map (k * ·)) = k * minDtOf id ts ss mn := by
    cases mn with
    | none => simp only [Option.map_none, minDtOf, PyNum.val_mul_id, h]
    | some x => rfl
  unfold initTimeIntervals getTimeIntervals
  simp only [h3, h4, h2]

theorem curves_of' {c k : K} {E : Num K} {P P' : Params K} {S S' : Select K} {sy sy' : List String} {atoms fw atoms' fw' : List ℕ}
    (hS : Picks S sy atoms fw) (hS' : Picks S' sy' atoms' fw') (hP : DefaultGrid E P) (hP' : DefaultGrid E P')
    (hn : P'.nSteps = P.nSteps) (hk : P'.stepSkip.val * P'.timeStep.val = k * (P.stepSkip.val * P.timeStep.val)) {F : ℕ} (hF : 2 ≤ F) {L L' : M3 K} {V V' : K}
    {u u' : ℕ → ℕ → V3 K} {m m' : ℕ → ℕ → Fin 3 → ℤ}
    (hstep : ∀ i < sy.length, ∀ j, j + 1 < F → HalfCell fun k => u i (j + 1) k - u i j k)
    (hstep' : ∀ i < sy'.length, ∀ j, j + 1 < F → HalfCell fun k => u' i (j + 1) k - u' i j k) {base base' : PyM (Base K)} {unit : K}
    (hb : ReadFrom E P S F sy L V u m base unit) (hb' : ReadFrom E P' S' F sy' L' V' u' m' base' unit)
    {sq : K → K} {o : Oracle K G} {U : UncParams K} (hblock : U.opt.block = false) (hsub : U.sub = 1) {charge : Charge K}
    (hq : ∀ l, charge = .array l → l.length = atoms.length) (hl : atoms'.length = atoms.length)
    (h1 : ∀ τ, reportedMsd (axesOf U.dimension) L' u' fw' atoms' F τ = c * reportedMsd (axesOf U.dimension) L u fw atoms F τ)
    (h2 : ∀ τ, reportedTotal (axesOf U.dimension) L' u' fw' atoms' (fun _ => 1) F τ =
      c * reportedTotal (axesOf U.dimension) L u fw atoms (fun _ => 1) F τ)
    (h3 : ∀ τ, reportedTotal Finset.univ L' u' fw' atoms' charge.of F τ =
      c * reportedTotal Finset.univ L u fw atoms charge.of F τ) : Curves c k sq o U charge base base' := by
  have hk0 : k ≠ 0 := by
    intro h0
    have := hP'.2.1
    rw [hk, h0, zero_mul] at this
    exact lt_irrefl _ this
  have hii : initTimeIntervals id E.geo F P'.timeStep P'.stepSkip none none P.nSteps "linear" =
      initTimeIntervals id E.geo F P.timeStep P.stepSkip none none P.nSteps "linear" := intervals_scale hk0 hk none none
  have htime : ∀ τ : ℕ, (τ : K) * P'.stepSkip.val * P'.timeStep.val / unit =
      ((fun x => k * x) ∘ fun τ : ℕ => (τ : K) * P.stepSkip.val * P.timeStep.val / unit) τ := by
    intro τ
    simp only [Function.comp]
    rw [mul_assoc, hk]
    ring
  intro g₁ g₁' g₂ g₂' Z Z'
  refine ⟨?_, ?_, ?_⟩
  · intro h h'
    obtain ⟨B, hB, rfl, hm⟩ := diffusion_inv h
    obtain ⟨B', hB', rfl, hm'⟩ := diffusion_inv h'
    obtain ⟨t, a0, ht⟩ := read_base hS hP hF hstep hb hB
    obtain ⟨t', b0, ht'⟩ := read_base hS' hP' hF hstep' hb' hB'
    rw [hn, hii] at b0
    obtain rfl := map_cast_inj (a0.symm.trans b0)
    obtain ⟨a1, a2⟩ := msd_of_parsed ht hblock hsub hm
    obtain ⟨b1, b2⟩ := msd_of_parsed ht' hblock hsub hm'
    rw [hl] at b1 b2
    refine ⟨?_, by rw [a2, b2, List.map_map]; exact List.map_congr_left fun τ _ => htime τ⟩
    rw [a1, b1, List.map_map]
    exact List.map_congr_left fun τ _ => h1 τ
  · intro h h'
    obtain ⟨B, hB, rfl, hm⟩ := jump_inv h
    obtain ⟨B', hB', rfl, hm'⟩ := jump_inv h'
    obtain ⟨t, a0, ht⟩ := read_base hS hP hF hstep hb hB
    obtain ⟨t', b0, ht'⟩ := read_base hS' hP' hF hstep' hb' hB'
    rw [hn, hii] at b0
    obtain rfl := map_cast_inj (a0.symm.trans b0)
    obtain ⟨a1, a2⟩ := mstd_of_parsed ht hblock hsub hm
    obtain ⟨b1, b2⟩ := mstd_of_parsed ht' hblock hsub hm'
    rw [hl] at b1 b2
    refine ⟨?_, by rw [a2, b2, List.map_map]; exact List.map_congr_left fun τ _ => htime τ⟩
    rw [a1, b1, List.map_map]
    exact List.map_congr_left fun τ _ => h2 τ
  · intro h h'
    obtain ⟨B, hB, rfl, hm⟩ := conductivity_inv h
    obtain ⟨B', hB', rfl, hm'⟩ := conductivity_inv h'
    obtain ⟨t, a0, ht⟩ := read_base hS hP hF hstep hb hB
    obtain ⟨t', b0, ht'⟩ := read_base hS' hP' hF hstep' hb' hB'
    rw [hn, hii] at b0
    obtain rfl := map_cast_inj (a0.symm.trans b0)
    obtain ⟨a1, a2⟩ := mscd_of_parsed ht hq hblock hsub hm
    obtain ⟨b1, b2⟩ := mscd_of_parsed ht' (hl ▸ hq) hblock hsub hm'
    rw [hl] at b1 b2
    refine ⟨?_, by rw [a2, b2, List.map_map]; exact List.map_congr_left fun τ _ => htime τ⟩
    rw [a1, b1, List.map_map]
    exact List.map_congr_left fun τ _ => h3 τ

theorem curves_of {c : K} {E : Num K} {P : Params K} {S S' : Select K} {sy sy' : List String} {atoms fw atoms' fw' : List ℕ}
    (hS : Picks S sy atoms fw) (hS' : Picks S' sy' atoms' fw') (hP : DefaultGrid E P) {F : ℕ} (hF : 2 ≤ F) {L L' : M3 K} {V V' : K}
    {u u' : ℕ → ℕ → V3 K} {m m' : ℕ → ℕ → Fin 3 → ℤ}
    (hstep : ∀ i < sy.length, ∀ j, j + 1 < F → HalfCell fun k => u i (j + 1) k - u i j k)
    (hstep' : ∀ i < sy'.length, ∀ j, j + 1 < F → HalfCell fun k => u' i (j + 1) k - u' i j k) {base base' : PyM (Base K)} {unit : K}
    (hb : ReadFrom E P S F sy L V u m base unit) (hb' : ReadFrom E P S' F sy' L' V' u' m' base' unit)
    {sq : K → K} {o : Oracle K G} {U : UncParams K} (hblock : U.opt.block = false) (hsub : U.sub = 1) {charge : Charge K}
    (hq : ∀ l, charge = .array l → l.length = atoms.length) (hl : atoms'.length = atoms.length)
    (h1 : ∀ τ, reportedMsd (axesOf U.dimension) L' u' fw' atoms' F τ = c * reportedMsd (axesOf U.dimension) L u fw atoms F τ)
    (h2 : ∀ τ, reportedTotal (axesOf U.dimension) L' u' fw' atoms' (fun _ => 1) F τ =
      c * reportedTotal (axesOf U.dimension) L u fw atoms (fun _ => 1) F τ)
    (h3 : ∀ τ, reportedTotal Finset.univ L' u' fw' atoms' charge.of F τ =
      c * reportedTotal Finset.univ L u fw atoms charge.of F τ) : Curves c 1 sq o U charge base base' :=
  curves_of' hS hS' hP hP rfl (one_mul _).symm hF hstep hstep' hb hb' hblock hsub hq hl h1 h2 h3

/-- **C81, drift.** If there are framework atoms, moving the whole system by any vector `c j` in each frame `j` changes none of the
reported curves.  (The steps must stay below half a cell.) -/
theorem C81_drift (E : Num K) (P : Params K) (S : Select K) (sy : List String) (atoms fw : List ℕ) (hS : Picks S sy atoms fw)
    (hfw : fw ≠ []) (hP : DefaultGrid E P) (F : ℕ) (hF : 2 ≤ F) (L : M3 K) (V : K) (u u' : ℕ → ℕ → V3 K) (c : ℕ → V3 K)
    (m m' : ℕ → ℕ → Fin 3 → ℤ) (hu : ∀ i j k, u' i j k = u i j k + c j k)
    (hstep : ∀ i < sy.length, ∀ j, j + 1 < F → HalfCell fun k => u i (j + 1) k - u i j k)
    (hstep' : ∀ i < sy.length, ∀ j, j + 1 < F → HalfCell fun k => u' i (j + 1) k - u' i j k) (base base' : PyM (Base K)) (unit : K)
    (hb : ReadFrom E P S F sy L V u m base unit) (hb' : ReadFrom E P S F sy L V u' m' base' unit)
    (sq : K → K) (o : Oracle K G) (U : UncParams K) (hblock : U.opt.block = false) (hsub : U.sub = 1) (charge : Charge K)
    (hq : ∀ l, charge = .array l → l.length = atoms.length) : Curves 1 1 sq o U charge base base' := by
  have hm := fun i s t => trueMove_translate (L := L) hfw hu i s t
  have ht : ∀ q s t, totalMove L u' fw atoms q s t = totalMove L u fw atoms q s t := by
    intro q s t
    unfold totalMove
    simp only [hm]
  refine curves_of hS hS hP hF hstep hstep' hb hb' hblock hsub hq rfl (fun τ => reportedMsd_congr fun s t => ?_)
    (fun τ => reportedTotal_congr fun s t => ?_) (fun τ => reportedTotal_congr fun s t => ?_)
  · simp only [hm, one_mul]
    exact List.Perm.refl _
  · rw [ht, one_mul]
  · rw [ht, one_mul]

/-- **C81, orientation.** Rotating or reflecting the cell, and all atoms with it, changes none of the reported curves as long as all
three axes are used. -/
theorem C81_rotation (E : Num K) (P : Params K) (S : Select K) (sy : List String) (atoms fw : List ℕ) (hS : Picks S sy atoms fw)
    (hP : DefaultGrid E P) (F : ℕ) (hF : 2 ≤ F) (L L' R : M3 K) (hR : Orthogonal R) (hL : ∀ k l, L' k l = ∑ a, L k a * R a l) (V : K)
    (u : ℕ → ℕ → V3 K) (m m' : ℕ → ℕ → Fin 3 → ℤ)
    (hstep : ∀ i < sy.length, ∀ j, j + 1 < F → HalfCell fun k => u i (j + 1) k - u i j k) (base base' : PyM (Base K)) (unit : K)
    (hb : ReadFrom E P S F sy L V u m base unit) (hb' : ReadFrom E P S F sy L' V u m' base' unit)
    (sq : K → K) (o : Oracle K G) (U : UncParams K) (hd : axesOf U.dimension = Finset.univ) (hblock : U.opt.block = false)
    (hsub : U.sub = 1) (charge : Charge K) (hq : ∀ l, charge = .array l → l.length = atoms.length) :
    Curves 1 1 sq o U charge base base' := by
  refine curves_of hS hS hP hF hstep hstep hb hb' hblock hsub hq rfl (fun τ => reportedMsd_congr fun s t => ?_)
    (fun τ => reportedTotal_congr fun s t => ?_) (fun τ => reportedTotal_congr fun s t => ?_)
  · simp only [hd, one_mul]
    rw [show (fun i => lengthSq Finset.univ (trueMove L' u fw i s t)) = fun i => lengthSq Finset.univ (trueMove L u fw i s t) from
      funext fun i => lengthSq_map hR (trueMove_map hL u fw i s t)]
  · rw [hd, one_mul]
    exact lengthSq_map hR (totalMove_map hL u fw atoms _ s t)
  · rw [one_mul]
    exact lengthSq_map hR (totalMove_map hL u fw atoms _ s t)

/-- **C81, unit of length.** Multiplying all lengths by `s` multiplies every reported curve by `s²`. -/
theorem C81_length_unit (E : Num K) (P : Params K) (S : Select K) (sy : List String) (atoms fw : List ℕ) (hS : Picks S sy atoms fw)
    (hP : DefaultGrid E P) (F : ℕ) (hF : 2 ≤ F) (L L' : M3 K) (s : K) (hL : ∀ k l, L' k l = s * L k l) (V V' : K)
    (u : ℕ → ℕ → V3 K) (m m' : ℕ → ℕ → Fin 3 → ℤ)
    (hstep : ∀ i < sy.length, ∀ j, j + 1 < F → HalfCell fun k => u i (j + 1) k - u i j k) (base base' : PyM (Base K)) (unit : K)
    (hb : ReadFrom E P S F sy L V u m base unit) (hb' : ReadFrom E P S F sy L' V' u m' base' unit)
    (sq : K → K) (o : Oracle K G) (U : UncParams K) (hblock : U.opt.block = false)
    (hsub : U.sub = 1) (charge : Charge K) (hq : ∀ l, charge = .array l → l.length = atoms.length) :
    Curves (s ^ 2) 1 sq o U charge base base' := by
  have hL' : ∀ k l, L' k l = ∑ a, L k a * (fun a l : Fin 3 => if a = l then s else 0) a l := by
    intro k l
    simp [hL, mul_comm]
  have hm : ∀ i t₁ t₂ l, trueMove L' u fw i t₁ t₂ l = s * trueMove L u fw i t₁ t₂ l := by
    intro i t₁ t₂ l
    rw [trueMove_map hL']
    simp [mul_comm]
  have ht : ∀ q t₁ t₂ l, totalMove L' u fw atoms q t₁ t₂ l = s * totalMove L u fw atoms q t₁ t₂ l := by
    intro q t₁ t₂ l
    rw [totalMove_map hL']
    simp [mul_comm]
  refine curves_of hS hS hP hF hstep hstep hb hb' hblock hsub hq rfl (fun τ => reportedMsd_congr fun t₁ t₂ => ?_)
    (fun τ => reportedTotal_congr fun t₁ t₂ => ?_) (fun τ => reportedTotal_congr fun t₁ t₂ => ?_)
  · rw [show (fun i => lengthSq (axesOf U.dimension) (trueMove L' u fw i t₁ t₂)) =
      fun i => s ^ 2 * lengthSq (axesOf U.dimension) (trueMove L u fw i t₁ t₂) from funext fun i => lengthSq_smul _ (hm i t₁ t₂)]
  · exact lengthSq_smul _ (ht _ t₁ t₂)
  · exact lengthSq_smul _ (ht _ t₁ t₂)

/-- **C81, order of the atoms.** Listing the atoms of the file in another order changes none of the reported curves (for the
conductivity with one charge for all ions). -/
theorem C81_order (E : Num K) (P : Params K) (S : Select K) (sy sy' sp : List String) (hS : S.specie = some sp)
    (hfr : S.framework = none) (σ : ℕ → ℕ) (hl : sy'.length = sy.length) (hσ : ∀ i < sy.length, σ i < sy.length)
    (hinj : ∀ i < sy.length, ∀ j < sy.length, σ i = σ j → i = j) (hs : ∀ i < sy.length, sy'.getD i "" = sy.getD (σ i) "")
    (hP : DefaultGrid E P) (F : ℕ) (hF : 2 ≤ F) (L : M3 K) (V : K) (u u' : ℕ → ℕ → V3 K) (m m' : ℕ → ℕ → Fin 3 → ℤ)
    (hu : ∀ i j, u' i j = u (σ i) j)
    (hstep : ∀ i < sy.length, ∀ j, j + 1 < F → HalfCell fun k => u i (j + 1) k - u i j k) (base base' : PyM (Base K)) (unit : K)
    (hb : ReadFrom E P S F sy L V u m base unit) (hb' : ReadFrom E P S F sy' L V u' m' base' unit)
    (sq : K → K) (o : Oracle K G) (U : UncParams K) (hblock : U.opt.block = false) (hsub : U.sub = 1) (q : K) :
    Curves 1 1 sq o U (.scalar q) base base' := by
  have ha : ((chosen sy' sp).map σ).Perm (chosen sy sp) := chosen_perm hl hσ hinj hs fun s => sp.contains s
  have hf : ((others sy' sp).map σ).Perm (others sy sp) := chosen_perm hl hσ hinj hs fun s => !sp.contains s
  refine curves_of (.species sp hS hfr) (.species sp hS hfr) hP hF hstep ?_ hb hb' hblock hsub (fun l h => by cases h)
    (by simpa using ha.length_eq) (fun τ => reportedMsd_congr fun s t => ?_)
    (fun τ => reportedTotal_congr fun s t => ?_) (fun τ => reportedTotal_congr fun s t => ?_)
  · intro i hi j hj
    simp only [hu]
    exact hstep (σ i) (hσ i (hl ▸ hi)) j hj
  · simp only [one_mul]
    rw [show (fun i => lengthSq (axesOf U.dimension) (trueMove L u' (others sy' sp) i s t)) =
      (fun i => lengthSq (axesOf U.dimension) (trueMove L u (others sy sp) i s t)) ∘ σ from
      funext fun i => by simp only [Function.comp, trueMove_perm hf hu], ← List.map_map]
    exact ha.map _
  · rw [totalMove_perm hf ha hu, one_mul]
  · have := totalMove_perm (L := L) hf ha hu q s t
    have e : (Charge.scalar q : Charge K).of = fun _ => q := rfl
    rw [e, this, one_mul]

/-- The total displacement weighted with the charges of the atoms does not depend on the order of the atoms. -/
theorem totalMove_perm_charges {L : M3 K} {u u' : ℕ → ℕ → V3 K} {fw fw' atoms atoms' : List ℕ} {σ : ℕ → ℕ} (hf : (fw'.map σ).Perm fw)
    (ha : (atoms'.map σ).Perm atoms) (hu : ∀ i j, u' i j = u (σ i) j) (q : ℕ → K) (s t : ℕ) :
    totalMove L u' fw' atoms' (Charge.array (atoms'.map fun i => q (σ i))).of s t =
      totalMove L u fw atoms (Charge.array (atoms.map q)).of s t := by
  funext l
  unfold totalMove
  simp only [trueMove_perm hf hu]
  have e1 : ∀ j : Fin atoms'.length, (Charge.array (atoms'.map fun i => q (σ i))).of j * trueMove L u fw (σ atoms'[j]) s t l =
      (fun i => q (σ i) * trueMove L u fw (σ i) s t l) atoms'[j] := by
    intro j
    simp [Charge.of]
  have e2 : ∀ j : Fin atoms.length, (Charge.array (atoms.map q)).of j * trueMove L u fw atoms[j] s t l =
      (fun i => q i * trueMove L u fw i s t l) atoms[j] := by
    intro j
    simp [Charge.of]
  rw [Finset.sum_congr rfl fun j _ => e1 j, Finset.sum_congr rfl fun j _ => e2 j,
    sum_fin_list atoms' fun i => q (σ i) * trueMove L u fw (σ i) s t l, sum_fin_list atoms fun i => q i * trueMove L u fw i s t l]
  rw [← (ha.map fun i => q i * trueMove L u fw i s t l).sum_eq, List.map_map]
  rfl

/-- **C81, order of ions with different charges.** Listing the atoms of the file in another order, and the charges with them, changes neither
values nor times of the conductivity analyzer. -/
theorem C81_order_charges (E : Num K) (P : Params K) (S : Select K) (sy sy' sp : List String) (hS : S.specie = some sp)
    (hfr : S.framework = none) (σ : ℕ → ℕ) (hl : sy'.length = sy.length) (hσ : ∀ i < sy.length, σ i < sy.length)
    (hinj : ∀ i < sy.length, ∀ j < sy.length, σ i = σ j → i = j) (hs : ∀ i < sy.length, sy'.getD i "" = sy.getD (σ i) "")
    (hP : DefaultGrid E P) (F : ℕ) (hF : 2 ≤ F) (L : M3 K) (V : K) (u u' : ℕ → ℕ → V3 K) (m m' : ℕ → ℕ → Fin 3 → ℤ)
    (hu : ∀ i j, u' i j = u (σ i) j)
    (hstep : ∀ i < sy.length, ∀ j, j + 1 < F → HalfCell fun k => u i (j + 1) k - u i j k) (base base' : PyM (Base K)) (unit : K)
    (hb : ReadFrom E P S F sy L V u m base unit) (hb' : ReadFrom E P S F sy' L V u' m' base' unit)
    (sq : K → K) (o : Oracle K G) (U : UncParams K) (hblock : U.opt.block = false) (hsub : U.sub = 1) (q : ℕ → K)
    (g₁ g₁' g₂ g₂' : G) (Z Z' : Analyzer K)
    (h : conductivityAnalyzer sq o g₁ U (.array ((chosen sy sp).map q)) base = .ok (Z, g₁'))
    (h' : conductivityAnalyzer sq o g₂ U (.array ((chosen sy' sp).map fun i => q (σ i))) base' = .ok (Z', g₂')) :
    Z'.diff.n = Z.diff.n ∧ Z'.diff.dt = Z.diff.dt := by
  have ha : ((chosen sy' sp).map σ).Perm (chosen sy sp) := chosen_perm hl hσ hinj hs fun s => sp.contains s
  have hf : ((others sy' sp).map σ).Perm (others sy sp) := chosen_perm hl hσ hinj hs fun s => !sp.contains s
  have hlen : (chosen sy' sp).length = (chosen sy sp).length := by simpa using ha.length_eq
  have hstep' : ∀ i < sy'.length, ∀ j, j + 1 < F → HalfCell fun k => u' i (j + 1) k - u' i j k := by
    intro i hi j hj
    simp only [hu]
    exact hstep (σ i) (hσ i (hl ▸ hi)) j hj
  obtain ⟨B, hB, rfl, hm⟩ := conductivity_inv h
  obtain ⟨B', hB', rfl, hm'⟩ := conductivity_inv h'
  obtain ⟨t, a0, ht⟩ := read_base (.species sp hS hfr) hP hF hstep hb hB
  obtain ⟨t', b0, ht'⟩ := read_base (.species sp hS hfr) hP hF hstep' hb' hB'
  obtain rfl := map_cast_inj (a0.symm.trans b0)
  obtain ⟨a1, a2⟩ := mscd_of_parsed ht (fun l e => by obtain rfl := Charge.array.inj e; simp) hblock hsub hm
  obtain ⟨b1, b2⟩ := mscd_of_parsed ht' (fun l e => by obtain rfl := Charge.array.inj e; simp) hblock hsub hm'
  rw [hlen] at b1 b2
  refine ⟨?_, by rw [a2, b2]⟩
  rw [a1, b1]
  refine List.map_congr_left fun τ _ => ?_
  rw [← one_mul (reportedTotal _ L u _ _ _ _ _)]
  exact reportedTotal_congr fun s t => by rw [totalMove_perm_charges hf ha hu, one_mul]

/-- **C81, the framework is needed.** If all atoms are selected there is nothing to refer the motion to: the same rigid solid at
rest and drifting gives different MSDs. -/
theorem C81_drift_needs_framework :
    ((diffusionAnalyzer id (exOracle ℚ) () exUnc (fromAse exNum exParams exSelect 1 none
      (.one (wrapped 3 ["Li", "Li"] exBox 1000 (fun _ _ => 0) fun _ _ _ => 0)))).toOption.map fun z => z.1.diff.n) =
      some [0, 0, 0] ∧
    ((diffusionAnalyzer id (exOracle ℚ) () exUnc (fromAse exNum exParams exSelect 1 none
      (.one (wrapped 3 ["Li", "Li"] exBox 1000 (fun _ j _ => (j : ℚ) / 10) fun _ _ _ => 0)))).toOption.map fun z => z.1.diff.n) =
      some [2, 15 / 2, 12] := by
  constructor <;> decide +kernel

/-! ## Time -/

/-- **C82, unit of time.** If the time between frames, `step_skip · time_step`, is `k` times as long, all reported values stay as they
are and all reported times are `k` times as long.  In particular (`k = 1`) only the product of `step_skip` and `time_step` matters. -/
theorem C82_time_unit (E : Num K) (P P' : Params K) (S : Select K) (sy : List String) (atoms fw : List ℕ) (hS : Picks S sy atoms fw)
    (hP : DefaultGrid E P) (hP' : DefaultGrid E P') (hn : P'.nSteps = P.nSteps) (k : K)
    (hk : P'.stepSkip.val * P'.timeStep.val = k * (P.stepSkip.val * P.timeStep.val)) (F : ℕ) (hF : 2 ≤ F) (L : M3 K) (V : K)
    (u : ℕ → ℕ → V3 K) (m : ℕ → ℕ → Fin 3 → ℤ)
    (hstep : ∀ i < sy.length, ∀ j, j + 1 < F → HalfCell fun k => u i (j + 1) k - u i j k) (base base' : PyM (Base K)) (unit : K)
    (hb : ReadFrom E P S F sy L V u m base unit) (hb' : ReadFrom E P' S F sy L V u m base' unit)
    (sq : K → K) (o : Oracle K G) (U : UncParams K) (hblock : U.opt.block = false) (hsub : U.sub = 1) (charge : Charge K)
    (hq : ∀ l, charge = .array l → l.length = atoms.length) : Curves 1 k sq o U charge base base' :=
  curves_of' hS hS hP hP' hn hk hF hstep hstep hb hb' hblock hsub hq rfl (fun _ => (one_mul _).symm) (fun _ => (one_mul _).symm)
    fun _ => (one_mul _).symm

/-- **C82, intervals.** The intervals (in frames) that a parser analyses do not change if `min_dt`, `max_dt` and the time between frames
are all expressed in another unit, whatever the bounds and the spacing. -/
theorem C82_intervals (geo : ℤ → ℤ → ℕ → ℕ → K) (T : ℕ) (ts ss ts' ss' : PyNum K) (k : K) (hk : k ≠ 0)
    (h : ss'.val * ts'.val = k * (ss.val * ts.val)) (mn mx : Option K) (n : ℤ) (sp : String) :
    initTimeIntervals id geo T ts' ss' (mn.map (k * ·)) (mx.map (k * ·)) n sp = initTimeIntervals id geo T ts ss mn mx n sp :=
  intervals_scale hk h mn mx

/-- Femtoseconds instead of picoseconds. -/
example : ((PyNum.int 3 : PyNum ℚ).val * (PyNum.float 2000).val = 1000 * ((PyNum.int 3).val * (PyNum.float (2 : ℚ)).val)) ∧
    ((diffusionAnalyzer id (exOracle ℚ) () exUnc (fromAse exNum { exParams with timeStep := .float 2000 } exSelect 1 none
      (.one (wrapped 5 ["Li", "O", "Li"] exBox 1000 exTrue exImages)))).toOption.map fun z => (z.1.diff.n, z.1.diff.dt)) =
    some ([84 / 125, 9 / 4, 322 / 75, 337 / 50, 256 / 25], [6000, 12000, 18000, 24000, 30000]) := by
  constructor <;> decide +kernel

/-- A rotation by an angle with cosine 3/5 about the z axis. -/
def exRot : M3 ℚ := ![![3 / 5, 4 / 5, 0], ![-4 / 5, 3 / 5, 0], ![0, 0, 1]]

theorem exRot_orthogonal : Orthogonal exRot := by
  unfold Orthogonal
  decide +kernel

/-- The example trajectory in the rotated cell. -/
example : ((diffusionAnalyzer id (exOracle ℚ) () exUnc (fromAse exNum exParams exSelect 1 none
      (.one (wrapped 5 ["Li", "O", "Li"] (fun k l => ∑ a, exBox k a * exRot a l) 1000 exTrue exImages)))).toOption.map
        fun z => (z.1.diff.n, z.1.diff.dt)) =
    some ([84 / 125, 9 / 4, 322 / 75, 337 / 50, 256 / 25], [6, 12, 18, 24, 30]) := by
  decide +kernel

/-- The example trajectory with a drift, and with the atoms in another order. -/
example : ((diffusionAnalyzer id (exOracle ℚ) () exUnc (fromAse exNum exParams exSelect 1 none
      (.one (wrapped 5 ["Li", "O", "Li"] exBox 1000 (fun i j => exTrue i j + fun _ => (j : ℚ) / 5) fun _ _ _ => 0)))).toOption.map
        fun z => (z.1.diff.n, z.1.diff.dt)) =
      some ([84 / 125, 9 / 4, 322 / 75, 337 / 50, 256 / 25], [6, 12, 18, 24, 30]) ∧
    ((diffusionAnalyzer id (exOracle ℚ) () exUnc (fromAse exNum exParams exSelect 1 none
      (.one (wrapped 5 ["O", "Li", "Li"] exBox 1000 (fun i => exTrue ([1, 0, 2].getD i 0)) fun _ _ _ => 0)))).toOption.map
        fun z => (z.1.diff.n, z.1.diff.dt)) =
      some ([84 / 125, 9 / 4, 322 / 75, 337 / 50, 256 / 25], [6, 12, 18, 24, 30]) := by
  constructor <;> decide +kernel

theorem exDrift_half : (∀ i < 3, ∀ j, j + 1 < 5 → HalfCell fun k => (exTrue i (j + 1) k + ((j + 1 : ℕ) : ℚ) / 5) -
    (exTrue i j k + (j : ℚ) / 5)) := by
  intro i hi j hj k
  have : j < 4 := by omega
  interval_cases i <;> interval_cases j <;> fin_cases k <;> decide +kernel

theorem exCharge {l : List ℚ} (e : (Charge.array [1, -1] : Charge ℚ) = .array l) : l.length = [0, 2].length := (Charge.array.inj e) ▸ rfl

/-- `C81_drift`: the example trajectory and the same with a drift (ASE). -/
example : Curves 1 1 id (exOracle ℚ) exUnc (.array [1, -1])
    (fromAse exNum exParams exSelect 1 none (.one (wrapped 5 ["Li", "O", "Li"] exBox 1000 exTrue exImages)))
    (fromAse exNum exParams exSelect 1 none
      (.one (wrapped 5 ["Li", "O", "Li"] exBox 1000 (fun i j k => exTrue i j k + (j : ℚ) / 5) fun _ _ _ => 0))) :=
  C81_drift exNum exParams exSelect _ _ _ exPicks (by simp) exGrid 5 (by decide) exBox 1000 exTrue _ (fun j _ => (j : ℚ) / 5) exImages _
    (fun _ _ _ => rfl) exTrue_half exDrift_half _ _ 1 (.inl ⟨rfl, rfl⟩) (.inl ⟨rfl, rfl⟩) id (exOracle ℚ) exUnc rfl rfl _
    fun _ => exCharge

/-- `C81_rotation` (pymatgen). -/
example : Curves 1 1 id (exOracle ℚ) exUnc (.array [1, -1])
    (fromPymatgen exNum exParams exSelect 1 none (.one (wrapped 5 ["Li", "O", "Li"] exBox 1000 exTrue exImages)))
    (fromPymatgen exNum exParams exSelect 1 none
      (.one (wrapped 5 ["Li", "O", "Li"] (fun k l => ∑ a, exBox k a * exRot a l) 1000 exTrue exImages))) :=
  C81_rotation exNum exParams exSelect _ _ _ exPicks exGrid 5 (by decide) exBox _ exRot exRot_orthogonal (fun _ _ => rfl) 1000 exTrue
    exImages _ exTrue_half _ _ 1000 (.inr (.inl ⟨rfl, rfl⟩)) (.inr (.inl ⟨rfl, rfl⟩)) id (exOracle ℚ) exUnc (by decide +kernel) rfl rfl _
    fun _ => exCharge

/-- `C81_length_unit`: nanometres instead of ångströms (MDAnalysis). -/
example : Curves ((1 / 10) ^ 2) 1 id (exOracle ℚ) exUnc (.array [1, -1])
    (fromUniverse exNum exParams exSelect 1 1 none (.one (wrappedMda 5 ["Li", "O", "Li"] exBox 1000 exTrue exImages)))
    (fromUniverse exNum exParams exSelect 1 1 none
      (.one (wrappedMda 5 ["Li", "O", "Li"] (fun k l => 1 / 10 * exBox k l) 1 exTrue exImages))) :=
  C81_length_unit exNum exParams exSelect _ _ _ exPicks exGrid 5 (by decide) exBox _ (1 / 10) (fun _ _ => rfl) 1000 1 exTrue
    exImages _ exTrue_half _ _ 1 (.inr (.inr ⟨rfl, rfl⟩)) (.inr (.inr ⟨rfl, rfl⟩)) id (exOracle ℚ) exUnc rfl rfl _ fun _ => exCharge

/-- `C81_order`: the first two atoms exchanged. -/
example : Curves 1 1 id (exOracle ℚ) exUnc (.scalar 2)
    (fromAse exNum exParams exSelect 1 none (.one (wrapped 5 ["Li", "O", "Li"] exBox 1000 exTrue exImages)))
    (fromAse exNum exParams exSelect 1 none
      (.one (wrapped 5 ["O", "Li", "Li"] exBox 1000 (fun i => exTrue ([1, 0, 2].getD i 0)) fun _ _ _ => 0))) :=
  C81_order exNum exParams exSelect ["Li", "O", "Li"] ["O", "Li", "Li"] ["Li"] rfl rfl (fun i => [1, 0, 2].getD i 0) rfl (by decide) (by decide)
    (by decide) exGrid 5 (by decide) exBox 1000 exTrue _ exImages _ (fun _ _ => rfl) exTrue_half _ _ 1 (.inl ⟨rfl, rfl⟩) (.inl ⟨rfl, rfl⟩)
    id (exOracle ℚ) exUnc rfl rfl 2

/-- Ions of charges 1 and 3, exchanged together with their charges. -/
example : ∃ Z Z', conductivityAnalyzer id (exOracle ℚ) () exUnc (.array [1, 3]) (fromAse exNum exParams exSelect 1 none
      (.one (wrapped 5 ["Li", "O", "Li"] exBox 1000 exTrue exImages))) = .ok (Z, ()) ∧
    conductivityAnalyzer id (exOracle ℚ) () exUnc (.array [3, 1]) (fromAse exNum exParams exSelect 1 none
      (.one (wrapped 5 ["Li", "O", "Li"] exBox 1000 (fun i => exTrue ([2, 1, 0].getD i 0)) fun _ _ _ => 0))) = .ok (Z', ()) ∧
    Z'.diff.n = Z.diff.n ∧ Z'.diff.dt = Z.diff.dt := by
  obtain ⟨⟨Z, ⟨⟩⟩, h⟩ := ok_of_isSome (x := conductivityAnalyzer id (exOracle ℚ) () exUnc (.array [1, 3]) (fromAse exNum exParams exSelect 1 none
      (.one (wrapped 5 ["Li", "O", "Li"] exBox 1000 exTrue exImages)))) (by decide +kernel)
  obtain ⟨⟨Z', ⟨⟩⟩, h'⟩ := ok_of_isSome (x := conductivityAnalyzer id (exOracle ℚ) () exUnc (.array [3, 1]) (fromAse exNum exParams exSelect 1 none
      (.one (wrapped 5 ["Li", "O", "Li"] exBox 1000 (fun i => exTrue ([2, 1, 0].getD i 0)) fun _ _ _ => 0)))) (by decide +kernel)
  refine ⟨Z, Z', h, h', C81_order_charges exNum exParams exSelect ["Li", "O", "Li"] ["Li", "O", "Li"] ["Li"] rfl rfl
    (fun i => [2, 1, 0].getD i 0) rfl (by decide) (by decide) (by decide) exGrid 5 (by norm_num) exBox 1000 exTrue _ exImages _ (fun _ _ => rfl) exTrue_half _ _ 1
    (.inl ⟨rfl, rfl⟩) (.inl ⟨rfl, rfl⟩) id (exOracle ℚ) exUnc rfl rfl (fun i => if i = 0 then 1 else 3) () () () () Z Z' h h'⟩

/-- `C82_time_unit`: femtoseconds instead of picoseconds. -/
example : Curves 1 1000 id (exOracle ℚ) exUnc (.array [1, -1])
    (fromAse exNum exParams exSelect 1 none (.one (wrapped 5 ["Li", "O", "Li"] exBox 1000 exTrue exImages)))
    (fromAse exNum { exParams with timeStep := .float 2000 } exSelect 1 none
      (.one (wrapped 5 ["Li", "O", "Li"] exBox 1000 exTrue exImages))) :=
  C82_time_unit exNum exParams { exParams with timeStep := .float 2000 } exSelect _ _ _ exPicks exGrid ⟨rfl, by decide +kernel, rfl, rfl, rfl, rfl⟩ rfl 1000 (by decide +kernel) 5
    (by decide) exBox 1000 exTrue exImages exTrue_half _ _ 1 (.inl ⟨rfl, rfl⟩) (.inl ⟨rfl, rfl⟩) id (exOracle ℚ) exUnc rfl rfl _
    fun _ => exCharge

end Kinisi
