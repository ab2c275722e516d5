import Verif.Lemmas.Rescale
import Verif.Props.Units
import Verif.Props.Bootstrap

/-!
# C123, C124: units of length and charge

The whole object in other units, and the fit on it.
-/

set_option linter.unusedSectionVars false
set_option linter.unusedVariables false

namespace Kinisi
open Spec
variable {K : Type} [Field K] [LinearOrder K] [IsStrictOrderedRing K] [FloorRing K] {G : Type}

theorem map_one_mul (l : List K) : (l.map fun x => 1 * x) = l := by
  simp

theorem scaleArr_one : (scaleArr (1 : K)) = id := by
  funext a
  simp only [scaleArr, one_mul, id]

theorem bootInit_scale (t c e : K) (deltaT : List K) (disp : List (Arr3 K)) (nO : List K) (sub : ℤ) (d : String) :
    bootInit (deltaT.map fun x => t * x) (disp.map (scaleArr c)) nO sub d = (bootInit deltaT disp nO sub d).map (rescaled t c e) := by
  unfold bootInit
  rw [pyStride_map, pyStride_map]
  cases pyStride sub disp with
  | error x => rfl
  | ok ds =>
  simp only [bind, Except.bind, Except.map]
  cases pyStride sub deltaT with
  | error x => rfl
  | ok dts =>
  cases ds with
  | nil => rfl
  | cons d0 ds =>
  simp only [List.map_cons]
  cases dimensionSlice d with
  | error x => rfl
  | ok sel => rfl

theorem expand_scale (c : K) (n : ℕ) (q : Charge K) : (scaleCharge c q).expand n = (q.expand n).map fun x => c * x := by
  cases q with
  | scalar q => simp only [scaleCharge, Charge.expand, List.map_replicate]
  | array q => rfl

theorem scales_mscd (c s : K) (q : List K) : Scales s ((c * s) ^ 2) (mscdQuantity q) (mscdQuantity (q.map fun x => c * x)) :=
  ⟨fun a => chgMotion_scale c s q a, rfl⟩

theorem headD_scale (s : K) (l : List (Arr3 K)) : ((l.map (scaleArr s)).map Arr3.n0).headD 0 = (l.map Arr3.n0).headD 0 := by
  cases l <;> rfl

theorem pow_two_pos_of_ne {c s : K} (hc : c ≠ 0) (hs : 0 < s) : 0 < (c * s) ^ 2 :=
  lt_of_le_of_ne (sq_nonneg _) (pow_ne_zero 2 (mul_ne_zero hc hs.ne')).symm

/-- Times times `t`, displacements times `s` and charges times `c`. -/
theorem mscd_rescale {sq : K → K} (hsq : Homogeneous sq) (t : K) {c s : K} (hc : c ≠ 0) (hs : 0 < s) (o : Oracle K G) (opt : BootOpts K)
    (ho : opt.bootstrap = true ∨ opt.block = true → UnitFree ((c * s) ^ 2) o) (g : G) (deltaT : List K) (disp : List (Arr3 K)) (charge : Charge K)
    (nO : List K) (sub : ℤ) (d : String) :
    mscdBootstrap sq o opt g (deltaT.map fun x => t * x) (disp.map (scaleArr s)) (scaleCharge c charge) nO sub d =
      (mscdBootstrap sq o opt g deltaT disp charge nO sub d).map fun r => (rescaled t s ((c * s) ^ 2) r.1, r.2) := by
  unfold mscdBootstrap
  rw [bootInit_scale t s ((c * s) ^ 2)]
  cases bootInit deltaT disp nO sub d with
  | error x => rfl
  | ok b =>
    simp only [bind, Except.bind, Except.map]
    rw [show (rescaled t s ((c * s) ^ 2) b).displacements = b.displacements.map (scaleArr s) from rfl, headD_scale, expand_scale, List.length_map]
    exact observeAll_scale hsq hs (pow_two_pos_of_ne hc hs) opt ho (scales_mscd c s _) nO _ b g

/-! ## C123 -/

/-- **C123, unit of charge.** With all charges multiplied by `c` the constructor has the same outcome (exception or object), and the object is
the same except that the MSCD is multiplied by `c²`, the standard deviations by `c²`, the variances by `c⁴`, and so the resampled values.
Without bootstrap and blocking nothing is assumed of the library routines. -/
theorem C123_charges {sq : K → K} (hsq : Homogeneous sq) {c : K} (hc : c ≠ 0) (o : Oracle K G) (opt : BootOpts K)
    (ho : opt.bootstrap = true ∨ opt.block = true → UnitFree (c ^ 2) o) (g : G) (deltaT : List K) (disp : List (Arr3 K)) (charge : Charge K)
    (nO : List K) (sub : ℤ) (d : String) :
    mscdBootstrap sq o opt g deltaT disp (scaleCharge c charge) nO sub d =
      (mscdBootstrap sq o opt g deltaT disp charge nO sub d).map fun r => (rescaled 1 1 (c ^ 2) r.1, r.2) := by
  have h := mscd_rescale hsq 1 hc (one_pos (α := K)) o opt (by rwa [mul_one]) g deltaT disp charge nO sub d
  rwa [scaleArr_one, List.map_id, mul_one, map_one_mul] at h

/-- Equal samples, equal objects. -/
theorem observeAll_congr (sq : K → K) (o : Oracle K G) (opt : BootOpts K) {Q Q' : Quantity K} (heff : Q'.eff = Q.eff) (nO : List K) (count : ℕ) (b : Boot K)
    (g : G) (h : ∀ a ∈ b.displacements, Q'.sample a = Q.sample a) : observeAll sq o opt Q' nO count b g = observeAll sq o opt Q nO count b g := by
  have hstep : ∀ (bg : Boot K × G) (i : ℕ), bg.1.displacements = b.displacements → observe sq o opt Q' nO bg i = observe sq o opt Q nO bg i := by
    intro bg i hd
    unfold observe
    cases ha : pyGet bg.1.displacements i with
    | error x => rfl
    | ok a =>
      have hm : a ∈ b.displacements := hd ▸ List.mem_of_getElem? (pyGet_inv ha)
      simp only [bind, Except.bind]
      rw [h a hm]
      unfold bootstrapBlock varianceBlock
      rw [heff]
  have hkeep : ∀ (bg bg' : Boot K × G) (i : ℕ), observe sq o opt Q nO bg i = .ok bg' → bg'.1.displacements = bg.1.displacements := by
    intro bg bg' i hr
    unfold observe at hr
    simp only [bind, Except.bind] at hr
    cases ha : pyGet bg.1.displacements i with
    | error x => rw [ha] at hr; cases hr
    | ok a =>
    rw [ha] at hr
    simp only at hr
    cases hl : Q.sample a with
    | error x => rw [hl] at hr; cases hr
    | ok l =>
    rw [hl] at hr
    simp only at hr
    by_cases h1 : l.length ≤ 1
    · rw [if_pos h1] at hr
      rw [Except.ok.inj hr]
    rw [if_neg h1] at hr
    cases hb : bootstrapBlock sq o opt Q nO i a l { bg.1 with euclid := bg.1.euclid ++ [(dSquared bg.1.axes a).map sq] } bg.2 with
    | error x => rw [hb] at hr; cases hr
    | ok r =>
    rw [hb] at hr
    obtain ⟨D, N, V, S, hr1⟩ := bootstrapBlock_inv hb
    simp only at hr
    cases hv : varianceBlock sq o opt Q nO i a l r.1 with
    | error x => rw [hv] at hr; cases hr
    | ok b3 =>
    rw [hv] at hr
    obtain ⟨m, w, vi, -, -, hb3⟩ := varianceBlock_inv hv
    simp only at hr
    cases ht : pyGet b3.deltaT i with
    | error x => rw [ht] at hr; cases hr
    | ok t =>
    rw [ht] at hr
    rw [← Except.ok.inj hr]
    simp only
    rw [hb3, hr1]
  have hfold : ∀ (l : List ℕ) (bg : Boot K × G), bg.1.displacements = b.displacements →
      l.foldlM (observe sq o opt Q' nO) bg = l.foldlM (observe sq o opt Q nO) bg := by
    intro l
    induction l with
    | nil => intro bg _; rfl
    | cons i l ih =>
      intro bg hd
      rw [List.foldlM_cons, List.foldlM_cons, hstep bg i hd]
      cases hr : observe sq o opt Q nO bg i with
      | error x => rfl
      | ok r => exact ih r ((hkeep bg r i hr).trans hd)
  unfold observeAll
  rw [hfold _ (b, g) rfl]

/-- **C123, sign.** Changing the sign of all charges changes nothing at all, whatever the options and the library routines: the resampled
distributions and the state of the random generator are the same, too. -/
theorem C123_sign (sq : K → K) (o : Oracle K G) (opt : BootOpts K) (g : G) (deltaT : List K) (disp : List (Arr3 K)) (charge : Charge K)
    (nO : List K) (sub : ℤ) (d : String) :
    mscdBootstrap sq o opt g deltaT disp (scaleCharge (-1) charge) nO sub d = mscdBootstrap sq o opt g deltaT disp charge nO sub d := by
  unfold mscdBootstrap
  cases bootInit deltaT disp nO sub d with
  | error x => rfl
  | ok b =>
    simp only [bind, Except.bind]
    rw [expand_scale]
    apply observeAll_congr
    · rfl
    · intro a _
      have h := chgMotion_scale (-1) 1 (charge.expand ((b.displacements.map Arr3.n0).headD 0)) a
      rw [scaleArr_one] at h
      simp only [mscdQuantity]
      rw [show id a = a from rfl] at h
      rw [h]
      cases chgMotion (charge.expand ((b.displacements.map Arr3.n0).headD 0)) a with
      | error x => rfl
      | ok l =>
        simp only [Except.map, Except.ok.injEq]
        rw [show (fun x : K => ((-1 : K) * 1) ^ 2 * x) = id from by funext x; simp, List.map_id]

/-- One charge per ion or the same charge for all. -/
theorem chgMotion_single (q : K) (a : Arr3 K) : chgMotion [q] a = chgMotion (List.replicate a.n0 q) a := by
  unfold chgMotion
  rw [if_pos (show [q].length = a.n0 ∨ [q].length = 1 ∨ a.n0 = 1 from Or.inr (Or.inl rfl)), if_pos (Or.inl List.length_replicate)]
  congr 1
  funext k
  congr 2
  funext x
  unfold chargeSum
  rw [if_pos (show (List.replicate a.n0 q).length = a.n0 from List.length_replicate)]
  by_cases h : [q].length = a.n0
  · rw [if_pos h, show [q] = List.replicate a.n0 q from by rw [← h]; rfl]
  · rw [if_neg h, if_pos (show [q].length = 1 from rfl)]
    congr 2
    apply List.map_congr_left
    intro i hi
    rw [List.getD_eq_getElem?_getD (l := List.replicate a.n0 q), List.getElem?_replicate, if_pos (List.mem_range.mp hi)]
    rfl

/-- **C123, one charge.** A scalar charge, an array with this charge for every ion and an array with this one entry give the same object. -/
theorem C123_one_charge (sq : K → K) (o : Oracle K G) (opt : BootOpts K) (g : G) (deltaT : List K) (disp : List (Arr3 K)) (q : K) (N : ℕ)
    (hN : ∀ a ∈ disp, a.n0 = N) (nO : List K) (sub : ℤ) (d : String) :
    mscdBootstrap sq o opt g deltaT disp (.array (List.replicate N q)) nO sub d = mscdBootstrap sq o opt g deltaT disp (.scalar q) nO sub d ∧
    mscdBootstrap sq o opt g deltaT disp (.array [q]) nO sub d = mscdBootstrap sq o opt g deltaT disp (.scalar q) nO sub d := by
  unfold mscdBootstrap
  cases hb : bootInit deltaT disp nO sub d with
  | error x => exact ⟨rfl, rfl⟩
  | ok b =>
    obtain ⟨hmem, hne⟩ : (∀ a ∈ b.displacements, a ∈ disp) ∧ b.displacements ≠ [] := by
      obtain ⟨ds, dts, sel, d0, e1, -, -, e2, rfl⟩ := bootInit_inv hb
      refine ⟨fun a ha => pyStride_mem e1 ha, ?_⟩
      rintro h
      simp only at h
      rw [h] at e2
      cases e2
    have h0 : (b.displacements.map Arr3.n0).headD 0 = N := by
      cases hd : b.displacements with
      | nil => exact absurd hd hne
      | cons d0 ds => exact hN d0 (hmem d0 (hd ▸ List.mem_cons_self))
    simp only [bind, Except.bind, Charge.expand]
    rw [h0]
    refine ⟨rfl, ?_⟩
    apply observeAll_congr
    · rfl
    · intro a ha
      simp only [mscdQuantity]
      rw [chgMotion_single, hN a (hmem a ha)]

theorem sameCurve_rescaled (t c e : K) (b : Boot K) : SameCurve e t b (rescaled t c e b) := ⟨rfl, rfl, rfl, rfl, rfl⟩

theorem mul_startDt_one (a : GlsArgs K) : { a with startDt := 1 * a.startDt } = a := by
  rw [one_mul]

theorem scaled_units {ell tau : K} (hl : 0 < ell) (ht : 0 < tau) {L L' : GlsLib K} (hL : SameLib ell tau L L') {k : K} {g d : List K}
    (h : scaled L k (some g) = .ok d) : scaled L' k (some (g.map (ell / tau * ·))) = .ok (d.map (ell / tau * ·)) := by
  unfold scaled at h ⊢
  simp only [samplesOf] at h ⊢
  by_cases hk : k = 0
  · rw [if_pos hk] at h
    cases h
  rw [if_neg hk] at h ⊢
  have hmap : (g.map (ell / tau * ·)).map (fun x => x / k) = (g.map fun x => x / k).map (ell / tau * ·) := by
    simp only [List.map_map]
    apply List.map_congr_left
    intro x _
    simp only [Function.comp]
    ring
  rw [hmap, hL.dist _ _ (div_pos hl ht)]
  cases hd : L.dist (g.map fun x => x / k) with
  | error e => rw [hd] at h; cases h
  | ok u =>
    rw [hd] at h
    rw [← Except.ok.inj h]

theorem conversion_volume (C : Consts K) (T V : K) {w c : K} (hw : w ≠ 0) (h : conversion C T V = .ok c) : conversion C T (w * V) = .ok (c / w) := by
  unfold conversion at h ⊢
  simp only at h ⊢
  split_ifs at h with h1 h2
  rw [if_neg, if_neg h2, ← Except.ok.inj h]
  · congr 1
    have h3 : V ≠ 0 := by
      intro hV
      exact h1 (by rw [hV]; ring)
    have h4 : C.nA ≠ 0 := by
      intro hV
      exact h1 (by rw [hV]; ring)
    have h5 : C.R ≠ 0 := by
      intro hV
      exact h2 (by rw [hV]; ring)
    have h6 : T ≠ 0 := by
      intro hV
      exact h2 (by rw [hV]; ring)
    field_simp
  · intro h0
    rw [mul_assoc, mul_assoc, ← mul_assoc V] at h0
    exact (mul_ne_zero hw h1) h0

/-- The samples of sigma on a curve in other units, with a volume in other units. -/
theorem sigma_units {ell tau w : K} (hl : 0 < ell) (ht : 0 < tau) (hw : 0 < w) {L L' : GlsLib K} (hL : SameLib ell tau L L') {b b' : Boot K}
    (hb : SameCurve ell tau b b') (C : Consts K) (a : GlsArgs K) (T V : K) {b1 : Boot K} (h : conductivity L C a T V b = (b1, .ok ())) :
    ∃ b1' d, conductivity L' C { a with startDt := tau * a.startDt } T (w * V) b' = (b1', .ok ()) ∧ b1.sigma = some d ∧
      b1'.sigma = some (d.map (ell / tau / w * ·)) := by
  obtain ⟨b2, g, c, h1, h2, h3, rfl⟩ := conductivity_ok h
  obtain ⟨b2', e1, e2, -, -, -, e3⟩ := (C88_fit hl ht hL hb a).2 b2 h1
  have hdims : b2.dims ≠ 0 := by
    intro h0
    unfold conductivity at h
    rw [h1] at h
    simp only [h2, samplesOf, h3, if_pos h0] at h
    cases (Prod.mk.inj h).2
  have hdist : L.dist ((g.map fun x => x / (20000 * (b2.dims : K))).map fun x => x * c) = .ok () := by
    unfold conductivity at h
    rw [h1] at h
    simp only [h2, samplesOf, h3, if_neg hdims] at h
    cases hd : L.dist ((g.map fun x => x / (20000 * (b2.dims : K))).map fun x => x * c) with
    | error e => rw [hd] at h; cases (Prod.mk.inj h).2
    | ok u => rfl
  have hmap : ((g.map (ell / tau * ·)).map fun x => x / (20000 * (b2.dims : K))).map (fun x => x * (c / w)) =
      ((g.map fun x => x / (20000 * (b2.dims : K))).map fun x => x * c).map (ell / tau / w * ·) := by
    simp only [List.map_map]
    apply List.map_congr_left
    intro x _
    simp only [Function.comp]
    ring
  refine ⟨{ b2' with sigma := some (((g.map fun x => x / (20000 * (b2.dims : K))).map fun x => x * c).map (ell / tau / w * ·)) }, _, ?_, rfl, rfl⟩
  unfold conductivity
  rw [e1]
  simp only [e2, h2, Option.map_some, samplesOf, conversion_volume C T V hw.ne' h3, e3, if_neg hdims, hmap]
  rw [hL.dist _ _ (div_pos (div_pos hl ht) hw), hdist]

/-- **C123, conductivity.** With all charges multiplied by `c`, the samples of the conductivity are multiplied by `c²` (relative to library
routines that do not depend on the unit of their data). -/
theorem C123_sigma {sq : K → K} (hsq : Homogeneous sq) {c : K} (hc : c ≠ 0) (o : Oracle K G) (opt : BootOpts K)
    (ho : opt.bootstrap = true ∨ opt.block = true → UnitFree (c ^ 2) o) (g g' : G) (deltaT : List K) (disp : List (Arr3 K)) (charge : Charge K)
    (nO : List K) (sub : ℤ) (d : String) {b : Boot K} (hb : mscdBootstrap sq o opt g deltaT disp charge nO sub d = .ok (b, g'))
    {L L' : GlsLib K} (hL : SameLib (c ^ 2) 1 L L') (C : Consts K) (a : GlsArgs K) (T V : K) {b1 : Boot K}
    (h : conductivity L C a T V b = (b1, .ok ())) :
    ∃ b' b1' σ, mscdBootstrap sq o opt g deltaT disp (scaleCharge c charge) nO sub d = .ok (b', g') ∧
      conductivity L' C a T V b' = (b1', .ok ()) ∧ b1.sigma = some σ ∧ b1'.sigma = some (σ.map fun x => c ^ 2 * x) := by
  have h1 := C123_charges hsq hc o opt ho g deltaT disp charge nO sub d
  rw [hb] at h1
  obtain ⟨b1', σ, e1, e2, e3⟩ := sigma_units (lt_of_le_of_ne (sq_nonneg c) (pow_ne_zero 2 hc).symm) one_pos one_pos hL (sameCurve_rescaled 1 1 (c ^ 2) b) C a T V h
  rw [mul_startDt_one, one_mul] at e1
  rw [div_one, div_one] at e3
  exact ⟨_, b1', σ, h1, e1, e2, e3⟩

/-! ## C124 -/

/-- **C124, MSD.** With times multiplied by `t` and lengths by `s` the constructor has the same outcome, and the object is the same in the new
units: MSD and standard deviations times `s²`, variances times `s⁴`, distributions of the displacements times `s`, `n_o` and the
non-Gaussian parameter as they are. -/
theorem C124_msd {sq : K → K} (hsq : Homogeneous sq) (t : K) {s : K} (hs : 0 < s) (o : Oracle K G) (opt : BootOpts K)
    (ho : opt.bootstrap = true ∨ opt.block = true → UnitFree (s ^ 2) o) (g : G) (deltaT : List K) (disp : List (Arr3 K)) (nO : List K) (sub : ℤ)
    (d : String) : msdBootstrap sq o opt g (deltaT.map fun x => t * x) (disp.map (scaleArr s)) nO sub d =
      (msdBootstrap sq o opt g deltaT disp nO sub d).map fun r => (rescaled t s (s ^ 2) r.1, r.2) := by
  unfold msdBootstrap
  rw [bootInit_scale t s (s ^ 2)]
  cases bootInit deltaT disp nO sub d with
  | error x => rfl
  | ok b =>
    simp only [bind, Except.bind, Except.map]
    rw [show (rescaled t s (s ^ 2) b).displacements = b.displacements.map (scaleArr s) from rfl, List.length_map]
    exact observeAll_scale hsq hs (pow_pos hs 2) opt ho ⟨fun a => by simp only [msdQuantity, Except.map, dSquared_scale, rescaled], rfl⟩ nO _ b g

/-- **C124, MSTD.** -/
theorem C124_mstd {sq : K → K} (hsq : Homogeneous sq) (t : K) {s : K} (hs : 0 < s) (o : Oracle K G) (opt : BootOpts K)
    (ho : opt.bootstrap = true ∨ opt.block = true → UnitFree (s ^ 2) o) (g : G) (deltaT : List K) (disp : List (Arr3 K)) (nO : List K) (sub : ℤ)
    (d : String) : mstdBootstrap sq o opt g (deltaT.map fun x => t * x) (disp.map (scaleArr s)) nO sub d =
      (mstdBootstrap sq o opt g deltaT disp nO sub d).map fun r => (rescaled t s (s ^ 2) r.1, r.2) := by
  unfold mstdBootstrap
  rw [bootInit_scale t s (s ^ 2)]
  cases bootInit deltaT disp nO sub d with
  | error x => rfl
  | ok b =>
    simp only [bind, Except.bind, Except.map]
    rw [show (rescaled t s (s ^ 2) b).displacements = b.displacements.map (scaleArr s) from rfl, List.length_map]
    exact observeAll_scale hsq hs (pow_pos hs 2) opt ho ⟨fun a => by simp only [mstdQuantity, Except.map, collMotion_scale, rescaled], rfl⟩ nO _ b g

theorem scaleCharge_one (q : Charge K) : scaleCharge 1 q = q := by
  cases q with
  | scalar q => simp only [scaleCharge, one_mul]
  | array q => simp only [scaleCharge, one_mul, List.map_id']

/-- **C124, MSCD.** -/
theorem C124_mscd {sq : K → K} (hsq : Homogeneous sq) (t : K) {s : K} (hs : 0 < s) (o : Oracle K G) (opt : BootOpts K)
    (ho : opt.bootstrap = true ∨ opt.block = true → UnitFree (s ^ 2) o) (g : G) (deltaT : List K) (disp : List (Arr3 K)) (charge : Charge K) (nO : List K)
    (sub : ℤ) (d : String) : mscdBootstrap sq o opt g (deltaT.map fun x => t * x) (disp.map (scaleArr s)) charge nO sub d =
      (mscdBootstrap sq o opt g deltaT disp charge nO sub d).map fun r => (rescaled t s (s ^ 2) r.1, r.2) := by
  have h := mscd_rescale hsq t (one_ne_zero (α := K)) hs o opt (by rwa [one_mul]) g deltaT disp charge nO sub d
  rwa [scaleCharge_one, one_mul] at h

/-- **C124, diffusion coefficient.** With times multiplied by `t`, lengths by `s` and `start_dt` by `t`, the samples of D are multiplied by
`s² / t`. -/
theorem C124_D {sq : K → K} (hsq : Homogeneous sq) {t s : K} (ht : 0 < t) (hs : 0 < s) (o : Oracle K G) (opt : BootOpts K)
    (ho : opt.bootstrap = true ∨ opt.block = true → UnitFree (s ^ 2) o) (g g' : G) (deltaT : List K) (disp : List (Arr3 K)) (nO : List K) (sub : ℤ)
    (d : String) {b : Boot K} (hb : msdBootstrap sq o opt g deltaT disp nO sub d = .ok (b, g'))
    {L L' : GlsLib K} (hL : SameLib (s ^ 2) t L L') (a : GlsArgs K) {b1 : Boot K} (h : diffusion L a b = (b1, .ok ())) :
    ∃ b' b1' D, msdBootstrap sq o opt g (deltaT.map fun x => t * x) (disp.map (scaleArr s)) nO sub d = .ok (b', g') ∧
      diffusion L' { a with startDt := t * a.startDt } b' = (b1', .ok ()) ∧ b1.diffusionCoefficient = some D ∧
      b1'.diffusionCoefficient = some (D.map fun x => s ^ 2 / t * x) := by
  have h1 := C124_msd hsq t hs o opt ho g deltaT disp nO sub d
  rw [hb] at h1
  obtain ⟨b1', D, e1, e2, e3⟩ := C88_D (pow_pos hs 2) ht hL (sameCurve_rescaled t s (s ^ 2) b) a h
  exact ⟨_, b1', D, h1, e1, e2, e3⟩

/-- The fit leaves the displacements alone. -/
theorem gls_displacements {L : GlsLib K} {a : GlsArgs K} {b b' : Boot K} (h : bootstrapGLS L a b = (b', .ok ())) : b'.displacements = b.displacements := by
  obtain ⟨_, _, _, _, _, _, _, _, _, _, rfl⟩ := (bootstrapGLS_ok h).1
  rfl

/-- **C124, jump diffusion coefficient.** The samples of D_J are multiplied by `s² / t`. -/
theorem C124_DJ {sq : K → K} (hsq : Homogeneous sq) {t s : K} (ht : 0 < t) (hs : 0 < s) (o : Oracle K G) (opt : BootOpts K)
    (ho : opt.bootstrap = true ∨ opt.block = true → UnitFree (s ^ 2) o) (g g' : G) (deltaT : List K) (disp : List (Arr3 K)) (nO : List K) (sub : ℤ)
    (d : String) {b : Boot K} (hb : mstdBootstrap sq o opt g deltaT disp nO sub d = .ok (b, g'))
    {L L' : GlsLib K} (hL : SameLib (s ^ 2) t L L') (a : GlsArgs K) {b1 : Boot K} (h : jumpDiffusion L a b = (b1, .ok ())) :
    ∃ b' b1' D, mstdBootstrap sq o opt g (deltaT.map fun x => t * x) (disp.map (scaleArr s)) nO sub d = .ok (b', g') ∧
      jumpDiffusion L' { a with startDt := t * a.startDt } b' = (b1', .ok ()) ∧ b1.jumpDiffusionCoefficient = some D ∧
      b1'.jumpDiffusionCoefficient = some (D.map fun x => s ^ 2 / t * x) := by
  have h1 := C124_mstd hsq t hs o opt ho g deltaT disp nO sub d
  rw [hb] at h1
  obtain ⟨b2, f, d0, rest, h2, h3, h4, rfl⟩ := jumpDiffusion_ok h
  obtain ⟨b2', e1, e2, -, -, -, e3⟩ := (C88_fit (pow_pos hs 2) ht hL (sameCurve_rescaled t s (s ^ 2) b) a).2 b2 h2
  have hsc : scaled L (20000 * (b2.dims : K) * (d0.n0 : K)) (some f) = .ok (f.map fun x => x / (20000 * (b2.dims : K) * (d0.n0 : K))) := by
    unfold jumpDiffusion at h
    rw [h2] at h
    simp only [h4, h3] at h
    cases hd : scaled L (20000 * (b2.dims : K) * (d0.n0 : K)) (some f) with
    | error e => rw [hd] at h; cases (Prod.mk.inj h).2
    | ok r =>
      obtain ⟨u, q1, rfl⟩ := scaled_ok hd
      obtain rfl := Option.some.inj q1
      rfl
  have hdisp : b2'.displacements = scaleArr s d0 :: rest.map (scaleArr s) := by
    rw [gls_displacements e1, show (rescaled t s (s ^ 2) b).displacements = b.displacements.map (scaleArr s) from rfl, ← gls_displacements h2, h4]
    rfl
  refine ⟨_, { b2' with jumpDiffusionCoefficient := some ((f.map fun x => x / (20000 * (b2.dims : K) * (d0.n0 : K))).map (s ^ 2 / t * ·)) }, _, h1, ?_,
    rfl, rfl⟩
  unfold jumpDiffusion
  rw [e1]
  simp only [hdisp, e2, h3, Option.map_some, e3]
  rw [show (scaleArr s d0).n0 = d0.n0 from rfl, scaled_units (pow_pos hs 2) ht hL hsc]

/-- **C124, conductivity.** With the volume multiplied by `s³`, the samples of the conductivity are multiplied by `s² / t / s³`. -/
theorem C124_sigma {sq : K → K} (hsq : Homogeneous sq) {t s : K} (ht : 0 < t) (hs : 0 < s) (o : Oracle K G) (opt : BootOpts K)
    (ho : opt.bootstrap = true ∨ opt.block = true → UnitFree (s ^ 2) o) (g g' : G) (deltaT : List K) (disp : List (Arr3 K)) (charge : Charge K)
    (nO : List K) (sub : ℤ) (d : String) {b : Boot K} (hb : mscdBootstrap sq o opt g deltaT disp charge nO sub d = .ok (b, g'))
    {L L' : GlsLib K} (hL : SameLib (s ^ 2) t L L') (C : Consts K) (a : GlsArgs K) (T V : K) {b1 : Boot K}
    (h : conductivity L C a T V b = (b1, .ok ())) :
    ∃ b' b1' σ, mscdBootstrap sq o opt g (deltaT.map fun x => t * x) (disp.map (scaleArr s)) charge nO sub d = .ok (b', g') ∧
      conductivity L' C { a with startDt := t * a.startDt } T (s ^ 3 * V) b' = (b1', .ok ()) ∧ b1.sigma = some σ ∧
      b1'.sigma = some (σ.map fun x => s ^ 2 / t / s ^ 3 * x) := by
  have h1 := C124_mscd hsq t hs o opt ho g deltaT disp charge nO sub d
  rw [hb] at h1
  obtain ⟨b1', σ, e1, e2, e3⟩ := sigma_units (pow_pos hs 2) ht (pow_pos hs 3) hL (sameCurve_rescaled t s (s ^ 2) b) C a T V h
  exact ⟨_, b1', σ, h1, e1, e2, e3⟩

/-! ## Examples -/

/-- The square root of the reals qualifies. -/
example : Homogeneous Real.sqrt := isSqrt_homogeneous exReal_sqrt

/-- The routines of the examples do not depend on units. -/
theorem exOracle_unitFree (e : ℚ) : UnitFree e (exOracle ℚ) := ⟨fun _ => rfl, fun _ => rfl⟩

/-- The zero function has the property that is used of the square root, and can be computed with. -/
theorem exZero_homogeneous : Homogeneous (fun _ : ℚ => (0 : ℚ)) := fun _ _ _ _ => (mul_zero _).symm

/-- Two ions and six intervals. -/
def exIonMoves : List (Arr3 ℚ) := [⟨2, 7, fun i k => ![i + k, k, 1]⟩, ⟨2, 6, fun i k => ![2 * i + k, k, 1]⟩, ⟨2, 5, fun i k => ![3 * i + k, k, 2]⟩,
  ⟨2, 4, fun i k => ![4 * i + k, k, 2]⟩, ⟨2, 3, fun i k => ![5 * i + k, k, 3]⟩, ⟨2, 2, fun i k => ![6 * i + k, k, 3]⟩]

/-- C123 on this example: charges 1, -2 and 3, -6; the second MSCD is nine times the first, the variances 81 times. -/
example : ((mscdBootstrap (fun _ => 0) (exOracle ℚ) (exOpts ℚ) () [1, 2, 3, 4, 5, 6] exIonMoves (.array [1, -2]) [14, 6, 4, 3, 2, 2] 1 "xyz").toOption.map fun r =>
      (r.1.n, r.1.v)) = some ([43, 166 / 3, 76], [some (536 / 3), some (17458 / 45), some 507]) ∧
    ((mscdBootstrap (fun _ => 0) (exOracle ℚ) (exOpts ℚ) () [1, 2, 3, 4, 5, 6] exIonMoves (scaleCharge 3 (.array [1, -2])) [14, 6, 4, 3, 2, 2] 1 "xyz").toOption.map
      fun r => (r.1.n, r.1.v)) = some ([387, 498, 684], [some 14472, some (157122 / 5), some 41067]) := by
  decide +kernel

/-- The hypotheses of the theorems on fits: the runs succeed, and there are routines that do not depend on units. -/
example : ((mscdBootstrap (fun _ => 0) (exOracle ℚ) (exOpts ℚ) () [1, 2, 3, 4, 5, 6] exIonMoves (.array [1, -2]) [14, 6, 4, 3, 2, 2] 1 "xyz").toOption.map fun r =>
      ((conductivity (exUnitLib 1 1) ⟨6, 1, 8⟩ (exArgs 2 true) 300 1000 r.1).2.toOption, (conductivity (exUnitLib 1 1) ⟨6, 1, 8⟩ (exArgs 2 true) 300 1000 r.1).1.sigma)) =
        some (some (), some [125000000000000000, 0, 625000000000000000 / 3, 250000000000000000 / 3]) ∧
    ((mstdBootstrap (fun _ => 0) (exOracle ℚ) (exOpts ℚ) () [1, 2, 3, 4, 5, 6] exIonMoves [14, 6, 4, 3, 2, 2] 1 "xyz").toOption.map fun r =>
      ((jumpDiffusion (exUnitLib 1 1) (exArgs 2 true) r.1).2.toOption, (jumpDiffusion (exUnitLib 1 1) (exArgs 2 true) r.1).1.jumpDiffusionCoefficient)) =
        some (some (), some [1 / 40000, 0, 1 / 24000, 1 / 60000]) ∧
    ((msdBootstrap (fun _ => 0) (exOracle ℚ) (exOpts ℚ) () [1, 2, 3, 4, 5, 6] exIonMoves [14, 6, 4, 3, 2, 2] 1 "xyz").toOption.map fun r =>
      ((diffusion (exUnitLib 1 1) (exArgs 2 true) r.1).2.toOption, (diffusion (exUnitLib 1 1) (exArgs 2 true) r.1).1.diffusionCoefficient)) =
        some (some (), some [1 / 20000, 0, 1 / 12000, 1 / 30000]) := by
  decide +kernel

example : Homogeneous (fun _ : ℚ => (0 : ℚ)) ∧ UnitFree (9 : ℚ) (exOracle ℚ) ∧ SameLib ((3 : ℚ) ^ 2) 1 (exUnitLib 1 1) (exUnitLib (3 ^ 2) 1) ∧
    SameLib ((1 / 10 : ℚ) ^ 2) 1000 (exUnitLib 1 1) (exUnitLib ((1 / 10) ^ 2) 1000) ∧ ∀ a ∈ exIonMoves, a.n0 = 2 :=
  ⟨exZero_homogeneous, exOracle_unitFree 9, exUnitLib_same _ _ (by norm_num) (by norm_num), exUnitLib_same _ _ (by norm_num) (by norm_num), by decide⟩

end Kinisi
