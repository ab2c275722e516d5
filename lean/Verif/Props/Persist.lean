import Verif.Lemmas.Persist
import Verif.Props.History
import Verif.Props.Analyzer

/-!
# C58: dictionaries
-/

set_option linter.unusedSectionVars false
set_option linter.unusedVariables false

namespace Kinisi
open Spec

/-! ## C58 -/

section C58
variable {K D : Type} [Field K] [LinearOrder K] [IsStrictOrderedRing K] [FloorRing K] {G : Type}

/-- Every bootstrap object that can be made with the sub-sampling `sub`: one of the three constructors with any options, followed
by any fits, successful or not. -/
inductive Reachable (sub : ℤ) : Boot K → Prop
  | msd {sq : K → K} {o : Oracle K G} {opt : BootOpts K} {g g' : G} {deltaT : List K} {disp : List (Arr3 K)} {nO : List K} {d : String}
      {b : Boot K} (h : msdBootstrap sq o opt g deltaT disp nO sub d = .ok (b, g')) : Reachable sub b
  | mstd {sq : K → K} {o : Oracle K G} {opt : BootOpts K} {g g' : G} {deltaT : List K} {disp : List (Arr3 K)} {nO : List K} {d : String}
      {b : Boot K} (h : mstdBootstrap sq o opt g deltaT disp nO sub d = .ok (b, g')) : Reachable sub b
  | mscd {sq : K → K} {o : Oracle K G} {opt : BootOpts K} {g g' : G} {deltaT : List K} {disp : List (Arr3 K)} {q : Charge K} {nO : List K}
      {d : String} {b : Boot K} (h : mscdBootstrap sq o opt g deltaT disp q nO sub d = .ok (b, g')) : Reachable sub b
  | fit {b : Boot K} (c : FitCall K) (h : Reachable sub b) : Reachable sub (c.run b).1

/-- What `from_dict` relies on. -/
def Sound (sub : ℤ) (b : Boot K) : Prop :=
  b.displacements ≠ [] ∧ b.subSampleDt = sub ∧ (∃ sel, dimensionSlice b.dimension = .ok sel ∧ b.axes = sel.axes) ∧
    b.dims = dimensionDims b.dimension

theorem FitCall.frame (c : FitCall K) (b : Boot K) : (c.run b).1.displacements = b.displacements ∧
    (c.run b).1.subSampleDt = b.subSampleDt ∧ (c.run b).1.dimension = b.dimension ∧ (c.run b).1.axes = b.axes ∧
    (c.run b).1.dims = b.dims ∧ (c.run b).1.deltaT = b.deltaT ∧ (c.run b).1.maxObs = b.maxObs ∧ (c.run b).1.nO = b.nO ∧
    (c.run b).1.euclid = b.euclid := by
  have upd : ∀ (L : GlsLib K) (a : GlsArgs K), FitUpdate b (bootstrapGLS L a b).1 := by
    intro L a
    cases h : bootstrapGLS L a b with
    | mk b1 o =>
      cases o with
      | error e => exact (bootstrapGLS_error h).1
      | ok u => exact (bootstrapGLS_ok h).1
  have same : ∀ {b' : Boot K}, FitUpdate b b' → b'.displacements = b.displacements ∧ b'.subSampleDt = b.subSampleDt ∧
      b'.dimension = b.dimension ∧ b'.axes = b.axes ∧ b'.dims = b.dims ∧ b'.deltaT = b.deltaT ∧ b'.maxObs = b.maxObs ∧ b'.nO = b.nO ∧
      b'.euclid = b.euclid := by
    rintro b' ⟨_, _, _, _, _, _, _, _, _, _, rfl⟩
    exact ⟨rfl, rfl, rfl, rfl, rfl, rfl, rfl, rfl, rfl⟩
  cases c with
  | gls L a => exact same (upd L a)
  | diffusion L a =>
    have h := same (upd L a)
    simp only [FitCall.run, Kinisi.diffusion]
    cases hb : bootstrapGLS L a b with
    | mk b1 o =>
      rw [hb] at h
      cases o with
      | error e => exact h
      | ok u => simp only; split <;> exact h
  | jump L a =>
    have h := same (upd L a)
    simp only [FitCall.run, jumpDiffusion]
    cases hb : bootstrapGLS L a b with
    | mk b1 o =>
      rw [hb] at h
      cases o with
      | error e => exact h
      | ok u => simp only; split <;> [exact h; (split <;> exact h)]
  | conductivity L C a T V =>
    have h := same (upd L a)
    simp only [FitCall.run, Kinisi.conductivity]
    cases hb : bootstrapGLS L a b with
    | mk b1 o =>
      rw [hb] at h
      cases o with
      | error e => exact h
      | ok u => simp only; split <;> [exact h; (split <;> [exact h; (split <;> [exact h; (split <;> exact h)])])]

theorem sound_of_init {deltaT : List K} {disp : List (Arr3 K)} {nO nO' : List K} {sub : ℤ} {d : String} {b0 b1 : Boot K}
    (h : bootInit deltaT disp nO sub d = .ok b0) (hf : SameFixed b0 b1) : Sound sub { b1 with nO := nO' } := by
  obtain ⟨ds, dts, sel, d0, -, -, hs, hd, rfl⟩ := bootInit_inv h
  rw [hf]
  refine ⟨?_, rfl, ⟨sel, hs, rfl⟩, rfl⟩
  rintro h0
  simp only at h0
  rw [h0] at hd
  cases hd

theorem reachable_sound {sub : ℤ} {b : Boot K} (h : Reachable (G := G) sub b) : Sound sub b := by
  induction h with
  | msd h => obtain ⟨b0, P, h1, -, -, -, b1, h2, rfl⟩ := msdBootstrap_inv h; exact sound_of_init h1 h2
  | mstd h => obtain ⟨b0, P, h1, -, -, -, b1, h2, rfl⟩ := mstdBootstrap_inv h; exact sound_of_init h1 h2
  | mscd h => obtain ⟨b0, P, h1, -, -, -, b1, h2, rfl⟩ := mscdBootstrap_inv h; exact sound_of_init h1 h2
  | fit c h ih =>
    obtain ⟨h1, h2, h3, h4, h5, -⟩ := FitCall.frame c ‹Boot K›
    obtain ⟨e1, e2, e3, e4⟩ := ih
    exact ⟨by rw [h1]; exact e1, by rw [h2]; exact e2, by rw [h3, h4]; exact e3, by rw [h5, h3]; exact e4⟩

theorem bind_ok {α β : Type} {x : PyM α} {f : α → PyM β} {r : β} (h : (x >>= f) = .ok r) : ∃ a, x = .ok a ∧ f a = .ok r := by
  cases x with
  | error e => cases h
  | ok a => exact ⟨a, rfl, h⟩

theorem ok_bind {α β : Type} {x : PyM α} {f : α → PyM β} {a : α} {r : PyM β} (h : x = .ok a) (h2 : f a = r) : (x >>= f) = r := by
  rw [h]; exact h2

theorem restore_fixed {L : DistLib K D} {m : Val K} {b p : PBoot K D} (h : restore L m b = .ok p) :
    p.displacements = b.displacements ∧ item m (k! "max_obs") = .ok p.maxObs ∧ item m (k! "flatchain") = .ok p.flatchain := by
  unfold restore at h
  obtain ⟨mo, hmo, h⟩ := bind_ok h
  iterate 16 obtain ⟨_, -, h⟩ := bind_ok h
  obtain ⟨fc, hfc, h⟩ := bind_ok h
  iterate 4 obtain ⟨_, -, h⟩ := bind_ok h
  obtain rfl := Except.ok.inj h
  exact ⟨rfl, hmo, hfc⟩

theorem distList_map {L : DistLib K D} (hL : ∀ d, L.fromDict (.dict (L.toDict d)) = .ok d) (l : List D) :
    distList L (.list (l.map fun d => .dict (L.toDict d))) = .ok l := by
  show (l.map fun d => Val.dict (L.toDict d)).mapM L.fromDict = _
  rw [List.mapM_map]
  have := mapM_ok_map (fun d => L.fromDict (.dict (L.toDict d))) id l fun d _ => hL d
  rw [List.map_id] at this
  exact this

theorem optDist_optDict {L : DistLib K D} (hL : ∀ d, L.fromDict (.dict (L.toDict d)) = .ok d) (x : Option D) :
    optDist L (optDict L x) = .ok x := by
  cases x with
  | none => rfl
  | some d => show (L.fromDict (.dict (L.toDict d))).map some = _; rw [hL]; rfl

/-- The saved state is restored whenever slicing with the saved step changes nothing. -/
theorem dict_roundtrip {L : DistLib K D} (hL : ∀ d, L.fromDict (.dict (L.toDict d)) = .ok d) (p : PBoot K D)
    (h1 : valStride p.subSampleDt p.displacements = .ok p.displacements) (h2 : valStride p.subSampleDt p.deltaT = .ok p.deltaT)
    (h3 : ∃ m, firstObs p.displacements = .ok m) (h4 : dimOf p.dimension = .ok (p.axes, p.dims)) :
    bootFromDict L (.dict (bootToDict L p)) = .ok p := by
  obtain ⟨m, h3⟩ := h3
  have i1 : item (.dict (bootToDict L p)) (k! "delta_t") = .ok p.deltaT := rfl
  have i2 : item (.dict (bootToDict L p)) (k! "displacements") = .ok p.displacements := rfl
  have i3 : item (.dict (bootToDict L p)) (k! "n_o") = .ok p.nO := rfl
  have i4 : item (.dict (bootToDict L p)) (k! "sub_sample_dt") = .ok p.subSampleDt := rfl
  have i5 : item (.dict (bootToDict L p)) (k! "dimension") = .ok p.dimension := rfl
  have i6 : item (.dict (bootToDict L p)) (k! "max_obs") = .ok p.maxObs := rfl
  have i7 : item (.dict (bootToDict L p)) (k! "euclidian_displacements") = .ok (.list (p.euclid.map fun d => .dict (L.toDict d))) := rfl
  have i8 : item (.dict (bootToDict L p)) (k! "dt") = .ok p.dt := rfl
  have i9 : item (.dict (bootToDict L p)) (k! "n") = .ok p.n := rfl
  have i10 : item (.dict (bootToDict L p)) (k! "s") = .ok p.s := rfl
  have i11 : item (.dict (bootToDict L p)) (k! "v") = .ok p.v := rfl
  have i12 : item (.dict (bootToDict L p)) (k! "n_bootstrap") = .ok p.nBoot := rfl
  have i13 : item (.dict (bootToDict L p)) (k! "s_bootstrap") = .ok p.sBoot := rfl
  have i14 : item (.dict (bootToDict L p)) (k! "v_bootstrap") = .ok p.vBoot := rfl
  have i15 : item (.dict (bootToDict L p)) (k! "ngp") = .ok p.ngp := rfl
  have i16 : item (.dict (bootToDict L p)) (k! "distributions") =
    .ok (if p.distributions.length ≠ 0 then .list (p.distributions.map fun d => .dict (L.toDict d)) else .null) := rfl
  have i17 : item (.dict (bootToDict L p)) (k! "diffusion_coefficient") = .ok (optDict L p.diffusionCoefficient) := rfl
  have i18 : item (.dict (bootToDict L p)) (k! "jump_diffusion_coefficient") = .ok (optDict L p.jumpDiffusionCoefficient) := rfl
  have i19 : item (.dict (bootToDict L p)) (k! "sigma") = .ok (optDict L p.sigma) := rfl
  have i20 : item (.dict (bootToDict L p)) (k! "intercept") = .ok (optDict L p.intercept) := rfl
  have i21 : item (.dict (bootToDict L p)) (k! "gradient") = .ok (optDict L p.gradient) := rfl
  have i22 : item (.dict (bootToDict L p)) (k! "flatchain") = .ok p.flatchain := rfl
  have i23 : item (.dict (bootToDict L p)) (k! "covariance_matrix") = .ok p.covariance := rfl
  have i24 : item (.dict (bootToDict L p)) (k! "start_dt") = .ok p.startDt := rfl
  have i25 : item (.dict (bootToDict L p)) (k! "model") = .ok p.model := rfl
  have i26 : item (.dict (bootToDict L p)) (k! "cond_max") = .ok p.condMax := rfl
  have hd : distsOr L [] (if p.distributions.length ≠ 0 then Val.list (p.distributions.map fun d => .dict (L.toDict d)) else .null) =
      .ok p.distributions := by
    by_cases hl : p.distributions.length = 0
    · rw [if_neg (by simpa using hl), List.length_eq_zero_iff.1 hl]
      rfl
    · rw [if_pos hl]
      exact distList_map hL _
  unfold bootFromDict
  refine ok_bind i1 (ok_bind i2 (ok_bind i3 (ok_bind i4 (ok_bind i5 ?_))))
  refine ok_bind (x := pBootInit _ _ _ _ _) (ok_bind h1 (ok_bind h2 (ok_bind h3 (ok_bind h4 rfl)))) ?_
  unfold restore
  refine ok_bind i6 ?_
  refine ok_bind (ok_bind (x := item _ _) i7 (distList_map hL _)) ?_
  refine ok_bind i8 ?_
  refine ok_bind i9 ?_
  refine ok_bind i10 ?_
  refine ok_bind i11 ?_
  refine ok_bind i12 ?_
  refine ok_bind i13 ?_
  refine ok_bind i14 ?_
  refine ok_bind i3 ?_
  refine ok_bind i15 ?_
  refine ok_bind (ok_bind (x := item _ _) i16 hd) ?_
  refine ok_bind (ok_bind (x := item _ _) i17 (optDist_optDict hL _)) ?_
  refine ok_bind (ok_bind (x := item _ _) i18 (optDist_optDict hL _)) ?_
  refine ok_bind (ok_bind (x := item _ _) i19 (optDist_optDict hL _)) ?_
  refine ok_bind (ok_bind (x := item _ _) i20 (optDist_optDict hL _)) ?_
  refine ok_bind (ok_bind (x := item _ _) i21 (optDist_optDict hL _)) ?_
  refine ok_bind i22 ?_
  refine ok_bind i23 ?_
  refine ok_bind i24 ?_
  refine ok_bind i25 ?_
  refine ok_bind i26 ?_
  rfl

/-- **C58.** For an object made without sub-sampling, whatever options and fits were used, `from_dict(to_dict(x))` is `x`, provided
the distributions themselves survive (`uravu` is not modelled).  This is what the analyzers use. -/
theorem C58_bootstrap {b : Boot K} (h : Reachable (G := G) 1 b) (mk : List K → D) (L : DistLib K D)
    (hL : ∀ d, L.fromDict (.dict (L.toDict d)) = .ok d) :
    bootFromDict L (.dict (bootToDict L (ofBoot mk b))) = .ok (ofBoot mk b) := by
  obtain ⟨h1, h2, ⟨sel, h3, h4⟩, h5⟩ := reachable_sound h
  have hs : (ofBoot mk b).subSampleDt = .int 1 := by show Val.int b.subSampleDt = _; rw [h2]
  refine dict_roundtrip hL _ ?_ ?_ ?_ ?_
  · rw [hs]
    show (pyStride 1 (b.displacements.map fun a => Val.arr (.d3 a))).map Val.list = _
    rw [pyStride_one]; rfl
  · rw [hs]
    show (pyStride 1 (b.deltaT.map some)).map (fun r => Val.arr (.d1 r)) = _
    rw [pyStride_one]; rfl
  · cases hd : b.displacements with
    | nil => exact absurd hd h1
    | cons a l => refine ⟨.int a.n1, ?_⟩; show firstObs (.list (b.displacements.map fun a => Val.arr (.d3 a))) = _; rw [hd]; rfl
  · show (do let sel ← dimensionSlice (String.ofList b.dimension.toList); _ : PyM (List (Fin 3) × ℕ)) = .ok (b.axes, b.dims)
    rw [String.ofList_toList, h3, h4, h5]
    rfl

/-- **C58 for the three analyzers.** -/
theorem C58_analyzer {a : Analyzer K} (h : Reachable (G := G) 1 a.diff) (mk : List K → D) (L : DistLib K D)
    (hL : ∀ d, L.fromDict (.dict (L.toDict d)) = .ok d) :
    analyzerFromDict L (.dict (analyzerToDict L (ofAnalyzer mk a))) = .ok (ofAnalyzer mk a) := by
  have j1 : item (.dict (analyzerToDict L (ofAnalyzer mk a))) (k! "delta_t") = .ok (ofAnalyzer mk a).deltaT := rfl
  have j2 : item (.dict (analyzerToDict L (ofAnalyzer mk a))) (k! "disp_3d") = .ok (ofAnalyzer mk a).disp3d := rfl
  have j3 : item (.dict (analyzerToDict L (ofAnalyzer mk a))) (k! "n_o") = .ok (ofAnalyzer mk a).nO := rfl
  have j4 : item (.dict (analyzerToDict L (ofAnalyzer mk a))) (k! "volume") = .ok (ofAnalyzer mk a).volume := rfl
  have j5 : item (.dict (analyzerToDict L (ofAnalyzer mk a))) (k! "diff") = .ok (.dict (bootToDict L (ofBoot mk a.diff))) := rfl
  unfold analyzerFromDict
  simp only [j1, j2, j3, j4, j5, bind, Except.bind]
  rw [C58_bootstrap h mk L hL]
  rfl

/-- What a saved object keeps; `_popt`, `_model_v` and `_npd_covariance_matrix`, which only a running fit uses, are not among it. -/
def SameSaved (b b' : Boot K) : Prop := b' = { b with popt := b'.popt, modelV := b'.modelV, npdCovariance := b'.npdCovariance }

theorem sameSaved_restore {b f : Boot K} (h1 : f.displacements = b.displacements) (h2 : f.deltaT = b.deltaT)
    (h3 : f.subSampleDt = b.subSampleDt) (h4 : f.dimension = b.dimension) (h5 : f.axes = b.axes) (h6 : f.dims = b.dims) :
    SameSaved b (restoreBoot b f) := by
  unfold SameSaved restoreBoot
  rw [h1, h2, h3, h4, h5, h6]

/-- Objects of one class: the constructor and any fits. -/
inductive MadeBy (P : Boot K → Prop) : Boot K → Prop
  | base {b : Boot K} (h : P b) : MadeBy P b
  | fit {b : Boot K} (c : FitCall K) (h : MadeBy P b) : MadeBy P (c.run b).1

theorem madeBy_frame {P : Boot K → Prop} {b : Boot K} (h : MadeBy P b) : ∃ b0, P b0 ∧ b.displacements = b0.displacements ∧
    b.subSampleDt = b0.subSampleDt ∧ b.dimension = b0.dimension ∧ b.axes = b0.axes ∧ b.dims = b0.dims ∧ b.deltaT = b0.deltaT ∧ b.nO = b0.nO := by
  induction h with
  | base h => exact ⟨_, h, rfl, rfl, rfl, rfl, rfl, rfl, rfl⟩
  | @fit b c h ih =>
    obtain ⟨b0, h0, e1, e2, e3, e4, e5, e6, e7⟩ := ih
    obtain ⟨f1, f2, f3, f4, f5, f6, f7, f8, f9⟩ := FitCall.frame c b
    exact ⟨b0, h0, f1.trans e1, f2.trans e2, f3.trans e3, f4.trans e4, f5.trans e5, f6.trans e6, f8.trans e7⟩

/-- Running a constructor again on the saved data succeeds and restores the fixed attributes. -/
theorem rerun {sq : K → K} {o : Oracle K G} {opt opt' : BootOpts K} {g : G} {deltaT : List K} {disp : List (Arr3 K)}
    {nO : List K} {d : String} {b b0 : Boot K} (Q : List (Fin 3) → Quantity K) (count : ℕ → ℕ) {P : ℕ} {b1 : Boot K}
    (hb : opt'.bootstrap = false) (hk : opt'.block = false) (hn : disp.length ≤ nO.length) (hc : ∀ n, count n ≤ n)
    (h1 : bootInit deltaT disp nO 1 d = .ok b0) (hP : P ≤ count b0.displacements.length)
    (hr : Recorded sq o opt (Q b0.axes) nO b0 P b) (hs : ∀ i, P ≤ i → i < count b0.displacements.length → Skipped (Q b0.axes) b0 i)
    (hf : SameFixed b0 b1) (hb1 : b = { b1 with nO := nO.take P }) :
    ∃ f f', bootInit b.deltaT b.displacements b.nO b.subSampleDt b.dimension = .ok f ∧
      observeAll sq o opt' (Q f.axes) b.nO (count f.displacements.length) f g = .ok (f', g) ∧
      f'.displacements = b.displacements ∧ f'.deltaT = b.deltaT ∧ f'.subSampleDt = b.subSampleDt ∧ f'.dimension = b.dimension ∧
      f'.axes = b.axes ∧ f'.dims = b.dims := by
  obtain ⟨ds, dts, sel, d0, e1, e2, e3, e4, e5⟩ := bootInit_inv h1
  rw [pyStride_one] at e1 e2
  obtain rfl := Except.ok.inj e1
  obtain rfl := Except.ok.inj e2
  have f1 : b.displacements = disp := by rw [hb1, hf, e5]
  have f2 : b.deltaT = deltaT := by rw [hb1, hf, e5]
  have f3 : b.subSampleDt = 1 := by rw [hb1, hf, e5]
  have f4 : b.dimension = d := by rw [hb1, hf, e5]
  have f5 : b.axes = sel.axes := by rw [hb1, hf, e5]
  have f6 : b.dims = dimensionDims d := by rw [hb1, hf, e5]
  have f7 : b.nO = nO.take P := by rw [hb1]
  have hi : bootInit b.deltaT b.displacements b.nO b.subSampleDt b.dimension = .ok
      { displacements := disp, deltaT := deltaT, maxObs := d0.n1, nO := nO.take P, subSampleDt := 1, dimension := d,
        axes := sel.axes, dims := dimensionDims d } := by
    rw [f1, f2, f3, f4, f7]
    unfold bootInit
    rw [pyStride_one, pyStride_one]
    simp only [bind, Except.bind]
    cases disp with
    | nil => cases e4
    | cons a l =>
      simp only [List.head?_cons, Option.some.injEq] at e4
      subst e4
      simp only
      rw [e3]
  have hPd : P ≤ disp.length := by
    rw [e5] at hP
    exact hP.trans (hc _)
  have hax : b0.axes = sel.axes := by rw [e5]
  have hdi : b0.displacements = disp := by rw [e5]
  have hdt : b0.deltaT = deltaT := by rw [e5]
  obtain ⟨f', hf'⟩ := observeAll_ok (sq := sq) (o := o) hb hk (Q := Q sel.axes) (nO := nO.take P) (g := g) (bootInit_empty hi) (P := P)
    (by rw [List.length_take]; omega) (by
      show P ≤ deltaT.length
      cases P with
      | zero => omega
      | succ P' =>
        obtain ⟨_, _, _, _, t, _, _, _, _, ht, _⟩ := hr.entry P' (by omega)
        rw [hdt] at ht
        have := (List.getElem?_eq_some_iff.1 ht).1
        omega) (count disp.length) (by
      intro i hi
      show ∃ a l, disp[i]? = some a ∧ _
      by_cases hiP : i < P
      · obtain ⟨a, l, _, _, _, q1, q2, q3, _⟩ := hr.entry i hiP
        rw [hdi] at q1
        rw [hax] at q2
        exact ⟨a, l, q1, q2, by simp [hiP, q3]⟩
      · obtain ⟨a, l, q1, q2, q3⟩ := hs i (by omega) (by rw [hdi]; exact hi)
        rw [hdi] at q1
        rw [hax] at q2
        exact ⟨a, l, q1, q2, by constructor <;> intro <;> omega⟩)
  refine ⟨_, f', hi, ?_, ?_⟩
  · rw [f7]; exact hf'
  · obtain ⟨_, _, _, _, _, b2, g1, g2⟩ := observeAll_inv (bootInit_empty hi) hf'
    rw [f1, f2, f3, f4, f5, f6, g2, g1]
    exact ⟨rfl, rfl, rfl, rfl, rfl, rfl⟩

/-- **C58 for `MSDBootstrap`.** Without sub-sampling, `MSDBootstrap.from_dict(x.to_dict())` has all the attributes of `x`: the constructor
that is run again on the saved data does not raise, and what it computes is replaced by what was saved. -/
theorem C58_msd_partial {sq : K → K} {o : Oracle K G} {opt : BootOpts K} {g₀ g₁ g : G} {alpha : K} {deltaT : List K} {disp : List (Arr3 K)}
    {nO : List K} {d : String} {b : Boot K} (hn : disp.length ≤ nO.length)
    (h : MadeBy (fun b => msdBootstrap sq o opt g₀ deltaT disp nO 1 d = .ok (b, g₁)) b) :
    ∃ b', msdReload sq o alpha g b = .ok b' ∧ SameSaved b b' := by
  obtain ⟨b0, h0, e1, e2, e3, e4, e5, e6, e7⟩ := madeBy_frame h
  obtain ⟨bi, P, h1, h2, h3, h4, b1, h5, h6⟩ := msdBootstrap_inv h0
  obtain ⟨f, f', q1, q2, r1, r2, r3, r4, r5, r6⟩ := rerun (opt' := { alpha := alpha }) (g := g) msdQuantity (fun n => n) rfl rfl hn (fun n => le_refl n)
    h1 h2 h3 h4 h5 h6
  have hm : msdBootstrap sq o { alpha := alpha } g b.deltaT b.displacements b.nO b.subSampleDt b.dimension = .ok (f', g) := by
    unfold msdBootstrap
    rw [e1, e2, e3, e6, e7, q1]
    exact q2
  refine ⟨restoreBoot b f', ?_, ?_⟩
  · unfold msdReload
    rw [hm]
    rfl
  · rw [← e1] at r1
    rw [← e6] at r2
    rw [← e2] at r3
    rw [← e3] at r4
    rw [← e4] at r5
    rw [← e5] at r6
    exact sameSaved_restore r1 r2 r3 r4 r5 r6

/-- **C58 for `MSTDBootstrap`.** -/
theorem C58_mstd_partial {sq : K → K} {o : Oracle K G} {opt : BootOpts K} {g₀ g₁ g : G} {alpha : K} {deltaT : List K} {disp : List (Arr3 K)}
    {nO : List K} {d : String} {b : Boot K} (hn : disp.length ≤ nO.length)
    (h : MadeBy (fun b => mstdBootstrap sq o opt g₀ deltaT disp nO 1 d = .ok (b, g₁)) b) :
    ∃ b', mstdReload sq o alpha g b = .ok b' ∧ SameSaved b b' := by
  obtain ⟨b0, h0, e1, e2, e3, e4, e5, e6, e7⟩ := madeBy_frame h
  obtain ⟨bi, P, h1, h2, h3, h4, b1, h5, h6⟩ := mstdBootstrap_inv h0
  obtain ⟨f, f', q1, q2, r1, r2, r3, r4, r5, r6⟩ := rerun (opt' := { alpha := alpha }) (g := g) mstdQuantity (fun n => n / 2) rfl rfl hn
    (fun n => by omega) h1 h2 h3 h4 h5 h6
  have hm : mstdBootstrap sq o { alpha := alpha } g b.deltaT b.displacements b.nO b.subSampleDt b.dimension = .ok (f', g) := by
    unfold mstdBootstrap
    rw [e1, e2, e3, e6, e7, q1]
    exact q2
  refine ⟨restoreBoot b f', ?_, ?_⟩
  · unfold mstdReload
    rw [hm]
    rfl
  · rw [← e1] at r1
    rw [← e6] at r2
    rw [← e2] at r3
    rw [← e3] at r4
    rw [← e4] at r5
    rw [← e5] at r6
    exact sameSaved_restore r1 r2 r3 r4 r5 r6

/-- **C58 is violated by sub-sampled objects.** The saved displacements are already sub-sampled, and `from_dict` passes the step to the
constructor again: unless there is only one interval left, the restored object has fewer displacements than the saved one. -/
theorem C58_subsample_violated {b : Boot K} {k : ℕ} (hk : 2 ≤ k) (hs : b.subSampleDt = (k : ℤ)) (hl : 2 ≤ b.displacements.length)
    (mk : List K → D) (L : DistLib K D) (p : PBoot K D) (h : bootFromDict L (.dict (bootToDict L (ofBoot mk b))) = .ok p) :
    ∃ l, p.displacements = .list l ∧ l.length < b.displacements.length := by
  have i1 : item (.dict (bootToDict L (ofBoot mk b))) (k! "delta_t") = .ok (ofBoot mk b).deltaT := rfl
  have i2 : item (.dict (bootToDict L (ofBoot mk b))) (k! "displacements") = .ok (ofBoot mk b).displacements := rfl
  have i3 : item (.dict (bootToDict L (ofBoot mk b))) (k! "n_o") = .ok (ofBoot mk b).nO := rfl
  have i4 : item (.dict (bootToDict L (ofBoot mk b))) (k! "sub_sample_dt") = .ok (ofBoot mk b).subSampleDt := rfl
  have i5 : item (.dict (bootToDict L (ofBoot mk b))) (k! "dimension") = .ok (ofBoot mk b).dimension := rfl
  unfold bootFromDict at h
  simp only [i1, i2, i3, i4, i5, bind, Except.bind] at h
  cases hp : pBootInit (D := D) (ofBoot mk b).deltaT (ofBoot mk b).displacements (ofBoot mk b).nO (ofBoot mk b).subSampleDt (ofBoot mk b).dimension with
  | error e => rw [hp] at h; cases h
  | ok q =>
  rw [hp] at h
  simp only at h
  have hq : p.displacements = q.displacements := (restore_fixed h).1
  have hd : valStride (ofBoot mk b).subSampleDt (ofBoot mk b).displacements =
      .ok (.list (stride k (b.displacements.map fun a => Val.arr (.d3 a)))) := by
    show (do let z ← stepOf (Val.int b.subSampleDt); (pyStride z (b.displacements.map fun a => Val.arr (.d3 a))).map Val.list : PyM (Val K)) = _
    rw [hs]
    show (pyStride (k : ℤ) _).map Val.list = _
    unfold pyStride
    rw [if_neg (by omega), if_pos (by omega)]
    rfl
  have hq2 : q.displacements = .list (stride k (b.displacements.map fun a => Val.arr (.d3 a))) := by
    unfold pBootInit at hp
    obtain ⟨x, hx, hp⟩ := bind_ok hp
    iterate 3 obtain ⟨_, -, hp⟩ := bind_ok hp
    rw [hd] at hx
    obtain rfl := Except.ok.inj hx
    obtain rfl := Except.ok.inj hp
    rfl
  refine ⟨_, hq.trans hq2, ?_⟩
  have h1 : (stride k (b.displacements.map fun a => Val.arr (Nd.d3 a))).length ≤ strideCount b.displacements.length k := by
    unfold stride
    refine (List.length_filterMap_le _ _).trans ?_
    simp
  refine lt_of_le_of_lt h1 ?_
  unfold strideCount
  rw [Nat.div_lt_iff_lt_mul (by omega), show ((k : ℤ)).natAbs = k from rfl]
  generalize b.displacements.length = m at hl ⊢
  obtain ⟨m, rfl⟩ := Nat.exists_eq_add_of_le hl
  obtain ⟨k, rfl⟩ := Nat.exists_eq_add_of_le hk
  have : (2 + m) * (2 + k) = 4 + 2 * m + 2 * k + m * k := by ring
  omega

/-- **C58 is violated by `MSCDBootstrap`.** Its constructor needs `ionic_charge`, which is neither saved nor passed: `from_dict` always
raises. -/
theorem C58_mscd_violated (L : DistLib K D) (p : PBoot K D) : mscdFromDict L (.dict (bootToDict L p)) = .error .typeError := rfl

end C58

/-- A distribution that is just its samples. -/
def samplesLib : DistLib ℚ (List ℚ) where
  toDict d := [(k! "samples", vec d)]
  fromDict v := do
    let s ← item v (k! "samples")
    match s with
    | .arr (.d1 l) => .ok (l.map fun x => x.getD 0)
    | _ => .error .typeError

theorem samplesLib_roundtrip (d : List ℚ) : samplesLib.fromDict (.dict (samplesLib.toDict d)) = .ok d := by
  show Except.ok ((d.map some).map fun x => x.getD 0) = _
  rw [List.map_map]
  congr 1
  exact (List.map_congr_left fun x _ => rfl).trans (List.map_id d)

/-- Three intervals with two windows each. -/
def threeDisp : List (Arr3 ℚ) := [exArr ℚ 2, exArr ℚ 2, exArr ℚ 2]

/-- **C58, the hypotheses are met** (`C58_bootstrap`, `C58_analyzer`): an object followed by a fit that fails and a fit that succeeds. -/
example : ∃ b : Boot ℚ, Reachable (G := Unit) 1 b ∧ b.diffusionCoefficient ≠ none ∧ b.euclid.length = 3 := by
  have h1 : (msdBootstrap id (exOracle ℚ) (exOpts ℚ) () [1, 2, 3] threeDisp [2, 2, 2] 1 "xyz").toOption.map (fun r =>
      (decide ((Kinisi.diffusion exLib (exArgs 100 true) r.1).2.toOption.isSome = false),
       decide ((Kinisi.diffusion exLib (exArgs 1 true) (Kinisi.diffusion exLib (exArgs 100 true) r.1).1).1.diffusionCoefficient ≠ none),
       (Kinisi.diffusion exLib (exArgs 1 true) (Kinisi.diffusion exLib (exArgs 100 true) r.1).1).1.euclid.length)) = some (true, true, 3) := by
    decide +kernel
  cases h : msdBootstrap id (exOracle ℚ) (exOpts ℚ) () [1, 2, 3] threeDisp [2, 2, 2] 1 "xyz" with
  | error e => rw [h] at h1; cases h1
  | ok r =>
    rw [h] at h1
    obtain ⟨b, g⟩ := r
    simp only [Except.toOption, Option.map_some, Option.some.injEq, Prod.mk.injEq, decide_eq_true_eq] at h1
    exact ⟨_, .fit (.diffusion exLib (exArgs 1 true)) (.fit (.diffusion exLib (exArgs 100 true)) (.msd h)), h1.2.1, h1.2.2⟩

/-- **C58_msd_partial and C58_mstd_partial, the hypotheses are met**: both constructors succeed on three intervals. -/
example : threeDisp.length ≤ ([2, 2, 2] : List ℚ).length ∧
    (∃ b g, msdBootstrap id (exOracle ℚ) (exOpts ℚ) () [1, 2, 3] threeDisp [2, 2, 2] 1 "xyz" = .ok (b, g) ∧ b.n.length = 3) ∧
    ∃ b g, mstdBootstrap id (exOracle ℚ) (exOpts ℚ) () [1, 2, 3] threeDisp [2, 2, 2] 1 "xyz" = .ok (b, g) ∧ b.n.length = 1 := by
  have h1 : (msdBootstrap id (exOracle ℚ) (exOpts ℚ) () [1, 2, 3] threeDisp [2, 2, 2] 1 "xyz").toOption.map (fun r => r.1.n.length) = some 3 := by
    decide +kernel
  have h2 : (mstdBootstrap id (exOracle ℚ) (exOpts ℚ) () [1, 2, 3] threeDisp [2, 2, 2] 1 "xyz").toOption.map (fun r => r.1.n.length) = some 1 := by
    decide +kernel
  refine ⟨le_refl _, ?_, ?_⟩
  · cases h : msdBootstrap id (exOracle ℚ) (exOpts ℚ) () [1, 2, 3] threeDisp [2, 2, 2] 1 "xyz" with
    | error e => rw [h] at h1; cases h1
    | ok r => rw [h] at h1; exact ⟨r.1, r.2, rfl, Option.some.inj h1⟩
  · cases h : mstdBootstrap id (exOracle ℚ) (exOpts ℚ) () [1, 2, 3] threeDisp [2, 2, 2] 1 "xyz" with
    | error e => rw [h] at h2; cases h2
    | ok r => rw [h] at h2; exact ⟨r.1, r.2, rfl, Option.some.inj h2⟩

/-- **C58 is violated**: three intervals, every second one analysed; the restored object has one interval left. -/
theorem C58_violated : ∃ b, msdBootstrap id (exOracle ℚ) (exOpts ℚ) () [1, 2, 3] threeDisp [2, 2, 2] 2 "xyz" = .ok (b, ()) ∧
    b.displacements.length = 2 ∧ ∃ p, bootFromDict samplesLib (.dict (bootToDict samplesLib (ofBoot id b))) = .ok p ∧
      (∃ l, p.displacements = .list l ∧ l.length < 2) ∧ bootFromDict samplesLib (.dict (bootToDict samplesLib (ofBoot id b))) ≠ .ok (ofBoot id b) := by
  have h1 : (msdBootstrap id (exOracle ℚ) (exOpts ℚ) () [1, 2, 3] threeDisp [2, 2, 2] 2 "xyz").toOption.map (fun r =>
      (r.1.displacements.length, r.1.subSampleDt, (bootFromDict samplesLib (.dict (bootToDict samplesLib (ofBoot id r.1)))).toOption.isSome)) =
      some (2, 2, true) := by decide +kernel
  cases h : msdBootstrap id (exOracle ℚ) (exOpts ℚ) () [1, 2, 3] threeDisp [2, 2, 2] 2 "xyz" with
  | error e => rw [h] at h1; cases h1
  | ok r =>
    rw [h] at h1
    obtain ⟨b, g⟩ := r
    simp only [Except.toOption, Option.map_some, Option.some.injEq, Prod.mk.injEq] at h1
    obtain ⟨e1, e2, e3⟩ := h1
    cases hp : bootFromDict samplesLib (.dict (bootToDict samplesLib (ofBoot id b))) with
    | error e => rw [hp] at e3; cases e3
    | ok p =>
      obtain ⟨l, hl1, hl2⟩ := C58_subsample_violated (k := 2) (le_refl 2) e2 (by omega) id samplesLib p hp
      refine ⟨b, rfl, e1, p, hp, ⟨l, hl1, by omega⟩, ?_⟩
      intro he
      rw [hp] at he
      obtain rfl := Except.ok.inj he
      have : Val.list (b.displacements.map fun a => Val.arr (.d3 a)) = .list l := hl1
      injection this with this
      rw [← this, List.length_map] at hl2
      omega

end Kinisi
