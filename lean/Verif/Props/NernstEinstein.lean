import Verif.Props.Rescale
import Verif.Props.Fit
import Mathlib.Tactic.FieldSimp

/-!
# C132: the Nernst–Einstein relation between conductivity and collective diffusion

For ions that all carry the same charge, the conductivity analysis and the jump-diffusion analysis look at the same data.
-/

set_option linter.unusedSectionVars false
set_option linter.unusedVariables false

namespace Kinisi
open Spec
variable {K : Type} [Field K] [LinearOrder K] [IsStrictOrderedRing K] [FloorRing K] {G : Type}

/-- Unit charges: the squared charge motion is the squared collective motion along all three axes. -/
theorem chgMotion_unit (a : Arr3 K) : chgMotion (List.replicate a.n0 1) a = .ok (collMotion [0, 1, 2] a) := by
  have hsum : ∀ k x, chargeSum (List.replicate a.n0 (1 : K)) a k x = .ok ((List.range a.n0).map fun i => a.get i k x).sum := by
    intro k x
    unfold chargeSum
    rw [if_pos List.length_replicate]
    congr 2
    apply List.map_congr_left
    intro i hi
    rw [List.getD_eq_getElem?_getD, List.getElem?_replicate, if_pos (List.mem_range.mp hi), Option.getD_some, one_mul]
  unfold chgMotion collMotion
  rw [if_pos (Or.inl List.length_replicate)]
  have : ∀ k, (do
      let v ← (List.finRange 3).mapM fun x => chargeSum (List.replicate a.n0 (1 : K)) a k x
      pure (v.map fun y => y ^ 2).sum : PyM K) = .ok (([0, 1, 2] : List (Fin 3)).map fun x => ((List.range a.n0).map fun i => a.get i k x).sum ^ 2).sum := by
    intro k
    rw [mapM_ok_map _ _ _ fun x _ => hsum k x]
    rfl
  exact mapM_ok_map _ _ _ fun k _ => this k

/-- **C132, data.** With the charge 1 for every ion and the dimension xyz, `MSCDBootstrap` gives the object of `MSTDBootstrap`, with every
attribute, or raises what it raises. -/
theorem C132_same_object (sq : K → K) (o : Oracle K G) (opt : BootOpts K) (g : G) (deltaT : List K) (disp : List (Arr3 K)) (N : ℕ)
    (hN : ∀ a ∈ disp, a.n0 = N) (nO : List K) (sub : ℤ) {d : String} (hd : d.toLower = "xyz") :
    mscdBootstrap sq o opt g deltaT disp (.scalar 1) nO sub d = mstdBootstrap sq o opt g deltaT disp nO sub d := by
  unfold mscdBootstrap mstdBootstrap
  cases hb : bootInit deltaT disp nO sub d with
  | error x => rfl
  | ok b =>
    obtain ⟨ds, dts, sel, d0, e1, -, e3, e2, rfl⟩ := bootInit_inv hb
    have hax : sel.axes = [0, 1, 2] := by
      unfold dimensionSlice at e3
      rw [hd] at e3
      rw [← Except.ok.inj e3]
      rfl
    have hmem : ∀ a ∈ ds, a ∈ disp := fun a ha => pyStride_mem e1 ha
    have h0 : (ds.map Arr3.n0).headD 0 = N := by
      cases ds with
      | nil => cases e2
      | cons d1 ds => exact hN d1 (hmem d1 List.mem_cons_self)
    simp only [bind, Except.bind, Charge.expand]
    rw [h0, hax]
    apply observeAll_congr
    · rfl
    · intro a ha
      simp only [mscdQuantity, mstdQuantity]
      rw [← hN a (hmem a ha), chgMotion_unit]

/-- **C132, results.** The ions of a simulation of volume `V` at the temperature `T`, each with the charge `q`, `N` of them.  One takes the
jump-diffusion coefficient `D_J`, and, with the same options and random numbers, the conductivity `σ`.  Then sample by sample
`σ = 1000 · (N / V) · (q e)² · D_J / (k_B T)`, with the volume in cm³ and `k_B = R / N_A`: the Nernst–Einstein relation (1000 for mS), with
the collective `D_J` in the place of `D`. -/
theorem C132_nernst_einstein {sq : K → K} (hsq : Homogeneous sq) {q : K} (hq : q ≠ 0) (o : Oracle K G) (opt : BootOpts K)
    (ho : opt.bootstrap = true ∨ opt.block = true → UnitFree (q ^ 2) o) (g gj gc : G) (deltaT : List K) (disp : List (Arr3 K)) (N : ℕ)
    (hN : ∀ a ∈ disp, a.n0 = N) (nO : List K) (sub : ℤ) {d : String} (hd : d.toLower = "xyz") {bj bc bj' bc' : Boot K}
    (hj : mstdBootstrap sq o opt g deltaT disp nO sub d = .ok (bj, gj))
    (hc : mscdBootstrap sq o opt g deltaT disp (.scalar q) nO sub d = .ok (bc, gc))
    {L L' : GlsLib K} (hL : SameLib (q ^ 2) 1 L L') (a : GlsArgs K) (hfj : jumpDiffusion L a bj = (bj', .ok ()))
    (C : Consts K) (hA : 0 < C.nA) (T V : K) (hfc : conductivity L' C a T V bc = (bc', .ok ())) :
    ∃ dj σ, bj'.jumpDiffusionCoefficient = some dj ∧ bc'.sigma = some σ ∧
      σ = dj.map fun x => 1000 * ((N : K) / (V * angstromCubed)) * (q * C.e) ^ 2 * x / (C.R / C.nA * T) := by
  have hone := C132_same_object sq o opt g deltaT disp N hN nO sub hd
  have hch := C123_charges hsq hq o opt ho g deltaT disp (.scalar 1) nO sub d
  rw [hone, hj] at hch
  simp only [scaleCharge, mul_one, Except.map] at hch
  rw [hc] at hch
  have hbc : bc = rescaled 1 1 (q ^ 2) bj := (Prod.mk.inj (Except.ok.inj hch)).1
  subst hbc
  obtain ⟨gr, dj, d0, rest, h1, h2, h3, h4⟩ := C48_diffusion.2 hfj
  obtain ⟨gr', s, k1, k2, k3⟩ := C48_conductivity hA hfc
  obtain ⟨b2, g2, d2, rest2, e1, e2, e3, e4⟩ := jumpDiffusion_ok hfj
  have hdisp : ∀ x ∈ bj.displacements, x ∈ disp := by
    obtain ⟨b0, P, t1, -, -, -, b5, t2, rfl⟩ := mstdBootstrap_inv hj
    obtain ⟨ds, dts, sel, d1, u1, -, -, -, rfl⟩ := bootInit_inv t1
    intro x hx
    have hds : b5.displacements = ds := t2.displacements
    exact pyStride_mem u1 (hds ▸ hx)
  have hd0 : d0.n0 = N := hN d0 (hdisp d0 (h3 ▸ List.mem_cons_self))
  have hN0 : (N : K) ≠ 0 := by
    intro h0
    have hd2 : d2.n0 = N := by
      obtain ⟨⟨sd, md, cm, po, mv, npd, cov, fc, gr, ic, e⟩, -⟩ := bootstrapGLS_ok e1
      have hdd : b2.displacements = bj.displacements := by rw [e]
      exact hN d2 (hdisp d2 (hdd ▸ e3 ▸ List.mem_cons_self))
    unfold jumpDiffusion at hfj
    rw [e1] at hfj
    simp only [e3, scaled, e2, samplesOf, hd2, h0, mul_zero, if_true] at hfj
    cases (Prod.mk.inj hfj).2
  obtain ⟨b3, f1, f2, -⟩ := (C88_fit (lt_of_le_of_ne (sq_nonneg q) (pow_ne_zero 2 hq).symm) one_pos hL (sameCurve_rescaled 1 1 (q ^ 2) bj) a).2 b2 e1
  rw [mul_startDt_one] at f1
  obtain ⟨b4, g4, c4, p1, p2, -, p4⟩ := conductivity_ok hfc
  rw [f1] at p1
  have hgr' : gr' = gr.map fun x => q ^ 2 * x := by
    have q1 : bj'.gradient = b2.gradient := by rw [e4]
    have q2 : bc'.gradient = b3.gradient := by rw [p4, ← (Prod.mk.inj p1).1]
    rw [k1, f2, ← q1, h1, div_one] at q2
    exact Option.some.inj q2
  refine ⟨dj, s, h2, k2, ?_⟩
  rw [k3, hgr', h4, List.map_map, List.map_map]
  apply List.map_congr_left
  intro x _
  simp only [Function.comp, hd0, rescaled]
  field_simp

/-! ## Examples -/

/-- C132 on two ions: the two objects. -/
example : ("XYZ" : String).toLower = "xyz" ∧ (∀ a ∈ exIonMoves, a.n0 = 2) ∧
    ((mscdBootstrap (fun _ => 0) (exOracle ℚ) (exOpts ℚ) () [1, 2, 3, 4, 5, 6] exIonMoves (.scalar 1) [14, 6, 4, 3, 2, 2] 1 "XYZ").toOption.map fun r =>
      (r.1.n, r.1.v)) =
    ((mstdBootstrap (fun _ => 0) (exOracle ℚ) (exOpts ℚ) () [1, 2, 3, 4, 5, 6] exIonMoves [14, 6, 4, 3, 2, 2] 1 "XYZ").toOption.map fun r =>
      (r.1.n, r.1.v)) := by
  decide +kernel

/-- And the two results for the charge 3 in a box of 1000 Å³ at 300 K (with easy constants: `k_B = 8 / 6`, `e = 1`).  The other hypotheses hold by the
example at the end of `Props/Rescale`. -/
example : ((mstdBootstrap (fun _ => 0) (exOracle ℚ) (exOpts ℚ) () [1, 2, 3, 4, 5, 6] exIonMoves [14, 6, 4, 3, 2, 2] 1 "XYZ").toOption.map fun r =>
      ((jumpDiffusion (exUnitLib 1 1) (exArgs 2 true) r.1).2.toOption, (jumpDiffusion (exUnitLib 1 1) (exArgs 2 true) r.1).1.jumpDiffusionCoefficient)) =
        some (some (), some [1 / 40000, 0, 1 / 24000, 1 / 60000]) ∧
    ((mscdBootstrap (fun _ => 0) (exOracle ℚ) (exOpts ℚ) () [1, 2, 3, 4, 5, 6] exIonMoves (.scalar 3) [14, 6, 4, 3, 2, 2] 1 "XYZ").toOption.map fun r =>
      ((conductivity (exUnitLib (3 ^ 2) 1) ⟨6, 1, 8⟩ (exArgs 2 true) 300 1000 r.1).2.toOption,
        (conductivity (exUnitLib (3 ^ 2) 1) ⟨6, 1, 8⟩ (exArgs 2 true) 300 1000 r.1).1.sigma)) =
        some (some (), some ([1 / 40000, 0, 1 / 24000, 1 / 60000].map fun x => 1000 * (2 / (1000 * (1 / 10 ^ 24))) * 9 * x / (8 / 6 * 300))) := by
  decide +kernel

/-- With the dimension xy the two objects differ: `MSCDBootstrap` goes on using all three axes (C31). -/
example : ((mscdBootstrap (fun _ => 0) (exOracle ℚ) (exOpts ℚ) () [1, 2, 3, 4, 5, 6] exIonMoves (.scalar 1) [14, 6, 4, 3, 2, 2] 1 "xy").toOption.map fun r =>
      r.1.n) ≠
    ((mstdBootstrap (fun _ => 0) (exOracle ℚ) (exOpts ℚ) () [1, 2, 3, 4, 5, 6] exIonMoves [14, 6, 4, 3, 2, 2] 1 "xy").toOption.map fun r => r.1.n) := by
  decide +kernel

end Kinisi
