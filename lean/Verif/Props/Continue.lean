import Verif.Props.Persist
import Verif.Props.PersistClass
import Verif.Props.AnyHistory
import Verif.Props.Swapped

/-!
# C143: work continues after saving and loading
-/

set_option linter.unusedSectionVars false
set_option linter.unusedVariables false

namespace Kinisi
open Spec
variable {K : Type} [Field K] [LinearOrder K] [IsStrictOrderedRing K] [FloorRing K] {G : Type}

/-- Two outcomes: the objects agree in all that is saved, the exceptions are the same. -/
def SameOutcome {α : Type} (x y : Boot K × α) : Prop := SameSaved x.1 y.1 ∧ y.2 = x.2

theorem sameSaved_iff {b b' : Boot K} : SameSaved b b' ↔ ∃ p m q, b' = { b with popt := p, modelV := m, npdCovariance := q } := by
  constructor
  · intro h; exact ⟨_, _, _, h⟩
  · rintro ⟨p, m, q, rfl⟩; rfl

theorem sameSaved_refl (b : Boot K) : SameSaved b b := rfl

theorem generateCovariance_saved (L : GlsLib K) (a : GlsArgs K) (r : ℕ) {b b' : Boot K} (h : SameSaved b b') :
    SameOutcome (generateCovariance L a b r) (generateCovariance L a b' r) := by
  obtain ⟨p, m, q, rfl⟩ := sameSaved_iff.mp h
  have hc : SameOutcome (chooseVariances L a.model b r) (chooseVariances L a.model { b with popt := p, modelV := m, npdCovariance := q } r) := by
    unfold chooseVariances modelBranch
    split_ifs
    · simp only
      cases L.curveFit (b.nO.drop r) (b.dt.drop r) (b.v.drop r) with
      | error e => exact ⟨rfl, rfl⟩
      | ok a =>
        simp only
        cases modelVariance (b.nO.drop r) (b.dt.drop r) a with
        | error e => exact ⟨rfl, rfl⟩
        | ok v => exact ⟨rfl, rfl⟩
    · exact ⟨rfl, rfl⟩
  unfold generateCovariance
  revert hc
  generalize chooseVariances L a.model b r = x
  generalize chooseVariances L a.model { b with popt := p, modelV := m, npdCovariance := q } r = y
  obtain ⟨x1, x2⟩ := x
  obtain ⟨y1, y2⟩ := y
  rintro ⟨h1, h2⟩
  simp only at h1 h2
  subst h2
  obtain ⟨p, m, q, rfl⟩ := sameSaved_iff.mp h1
  cases y2 with
  | error e => exact ⟨rfl, rfl⟩
  | ok v =>
    simp only
    cases populateCovariance v (x1.nO.drop r) with
    | error e => exact ⟨rfl, rfl⟩
    | ok M =>
      simp only
      cases condition L v.length M a.condMax with
      | error e => exact ⟨rfl, rfl⟩
      | ok A => exact ⟨rfl, rfl⟩

theorem storeChain_saved (L : GlsLib K) (f : Bool) (chain : List (List K)) {b b' : Boot K} (h : SameSaved b b') :
    SameOutcome (storeChain L f chain b) (storeChain L f chain b') := by
  obtain ⟨p, m, q, rfl⟩ := sameSaved_iff.mp h
  unfold storeChain
  simp only
  cases chainColumn L 0 chain with
  | error e => exact ⟨rfl, rfl⟩
  | ok g =>
    simp only
    split_ifs
    · cases chainColumn L 1 chain with
      | error e => exact ⟨rfl, rfl⟩
      | ok c => exact ⟨rfl, rfl⟩
    · exact ⟨rfl, rfl⟩

theorem bootstrapGLS_saved (L : GlsLib K) (a : GlsArgs K) {b b' : Boot K} (h : SameSaved b b') :
    SameOutcome (bootstrapGLS L a b) (bootstrapGLS L a b') := by
  have hm : SameSaved (markFit a b) (markFit a b') := by
    obtain ⟨p, m, q, rfl⟩ := sameSaved_iff.mp h
    rfl
  have hdt : (markFit a b').dt = (markFit a b).dt := by
    obtain ⟨p, m, q, rfl⟩ := sameSaved_iff.mp h
    rfl
  unfold bootstrapGLS
  rw [hdt]
  cases diffRegime (markFit a b).dt a.startDt with
  | error e => exact ⟨hm, rfl⟩
  | ok r =>
    simp only
    have hg := generateCovariance_saved L a r hm
    unfold fitFrom
    revert hg
    generalize generateCovariance L a (markFit a b) r = x
    generalize generateCovariance L a (markFit a b') r = y
    obtain ⟨x1, x2⟩ := x
    obtain ⟨y1, y2⟩ := y
    rintro ⟨h1, h2⟩
    simp only at h1 h2
    subst h2
    obtain ⟨p, m, q, rfl⟩ := sameSaved_iff.mp h1
    cases y2 with
    | error e => exact ⟨rfl, rfl⟩
    | ok mc =>
      obtain ⟨m, cov⟩ := mc
      simp only
      cases sampleChain L a (x1.dt.drop r) (x1.n.drop r) m cov with
      | error e => exact ⟨rfl, rfl⟩
      | ok chain => exact storeChain_saved L _ chain rfl

theorem run_saved (c : FitCall K) {b b' : Boot K} (h : SameSaved b b') : SameOutcome (c.run b) (c.run b') := by
  have hg := bootstrapGLS_saved c.lib c.args h
  have key : ∀ x y : Boot K × PyM Unit, SameOutcome x y → ∀ f : Boot K → Boot K × PyM Unit, (∀ b b', SameSaved b b' → SameOutcome (f b) (f b')) →
      SameOutcome (match (x : Boot K × PyM Unit) with | (b1, .error e) => (b1, .error e) | (b1, .ok _) => f b1)
        (match (y : Boot K × PyM Unit) with | (b1, .error e) => (b1, .error e) | (b1, .ok _) => f b1) := by
    rintro ⟨x1, x2⟩ ⟨y1, y2⟩ ⟨h1, h2⟩ f hf
    simp only at h1 h2
    subst h2
    cases y2 with
    | error e => exact ⟨h1, rfl⟩
    | ok u => exact hf _ _ h1
  cases c with
  | gls L a => exact hg
  | diffusion L a =>
    refine key _ _ hg (fun b1 => match scaled L (20000 * (b1.dims : K)) b1.gradient with
      | .error e => (b1, .error e)
      | .ok d => ({ b1 with diffusionCoefficient := some d }, .ok ())) ?_
    intro b b' h
    obtain ⟨p, m, q, rfl⟩ := sameSaved_iff.mp h
    simp only
    cases scaled L (20000 * (b.dims : K)) b.gradient with
    | error e => exact ⟨rfl, rfl⟩
    | ok d => exact ⟨rfl, rfl⟩
  | jump L a =>
    refine key _ _ hg (fun b1 => match b1.displacements with
      | [] => (b1, .error .indexError)
      | d0 :: _ =>
        match scaled L (20000 * (b1.dims : K) * (d0.n0 : K)) b1.gradient with
        | .error e => (b1, .error e)
        | .ok d => ({ b1 with jumpDiffusionCoefficient := some d }, .ok ())) ?_
    intro b b' h
    obtain ⟨p, m, q, rfl⟩ := sameSaved_iff.mp h
    obtain ⟨_ | ⟨d0, l⟩⟩ := b
    · exact ⟨rfl, rfl⟩
    · simp only
      split <;> exact ⟨rfl, rfl⟩
  | conductivity L C a T V =>
    refine key _ _ hg (fun b1 => match samplesOf b1.gradient with
      | .error e => (b1, .error e)
      | .ok g =>
        match conversion C T V with
        | .error e => (b1, .error e)
        | .ok c =>
          if b1.dims = 0 then (b1, .error .external)
          else
            match L.dist ((g.map fun x => x / (20000 * (b1.dims : K))).map fun x => x * c) with
            | .error e => (b1, .error e)
            | .ok _ => ({ b1 with sigma := some ((g.map fun x => x / (20000 * (b1.dims : K))).map fun x => x * c) }, .ok ())) ?_
    intro b b' h
    obtain ⟨p, m, q, rfl⟩ := sameSaved_iff.mp h
    simp only
    cases samplesOf b.gradient with
    | error e => exact ⟨rfl, rfl⟩
    | ok g =>
      simp only
      cases conversion C T V with
      | error e => exact ⟨rfl, rfl⟩
      | ok c =>
        simp only
        split_ifs
        · exact ⟨rfl, rfl⟩
        · cases L.dist ((g.map fun x => x / (20000 * (b.dims : K))).map fun x => x * c) with
          | error e => exact ⟨rfl, rfl⟩
          | ok u => exact ⟨rfl, rfl⟩

/-- Two objects behave alike from now on: whatever calls are made and whatever exceptions are caught, every call has the same outcome,
all attributes that are kept agree, and so does everything that is computed from them. -/
def BehaveAlike (b b' : Boot K) : Prop :=
  ∀ cs : List (FitCall K), SameSaved (afterCalls b cs) (afterCalls b' cs) ∧ (∀ c : FitCall K, (c.run (afterCalls b' cs)).2 = (c.run (afterCalls b cs)).2) ∧
    distribution (afterCalls b' cs) = distribution (afterCalls b cs) ∧ ngpMax (afterCalls b' cs) = ngpMax (afterCalls b cs) ∧
    ∀ rvs draw nPost nPred, posteriorPredictive rvs draw (afterCalls b' cs) nPost nPred = posteriorPredictive rvs draw (afterCalls b cs) nPost nPred

theorem behaveAlike_of {b b' : Boot K} (h : SameSaved b b') : BehaveAlike b b' := by
  have key : ∀ (cs : List (FitCall K)) (b b' : Boot K), SameSaved b b' → SameSaved (afterCalls b cs) (afterCalls b' cs) := by
    intro cs
    induction cs with
    | nil => intro b b' h; exact h
    | cons c cs ih => intro b b' h; exact ih _ _ (run_saved c h).1
  intro cs
  have hs := key cs b b' h
  refine ⟨hs, fun c => (run_saved c hs).2, ?_⟩
  revert hs
  generalize afterCalls b cs = x
  generalize afterCalls b' cs = y
  intro hs
  obtain ⟨p, m, q, rfl⟩ := sameSaved_iff.mp hs
  exact ⟨rfl, rfl, fun _ _ _ _ => rfl⟩

/-- **C143 (MSD).** A mean squared displacement object, after any fits, made into a dictionary and back, behaves like the one that was
never saved, whatever is done afterwards. -/
theorem C143_msd (sq : K → K) (o : Oracle K G) (opt : BootOpts K) (g₀ g₁ g : G) (alpha : K) (deltaT : List K) (disp : List (Arr3 K))
    (nO : List K) (hn : disp.length ≤ nO.length) (d : String) (b0 : Boot K) (h0 : msdBootstrap sq o opt g₀ deltaT disp nO 1 d = .ok (b0, g₁))
    (cs : List (FitCall K)) : ∃ b', msdReload sq o alpha g (afterCalls b0 cs) = .ok b' ∧ BehaveAlike (afterCalls b0 cs) b' := by
  have hm : ∀ (cs : List (FitCall K)) (b : Boot K), MadeBy (fun b => msdBootstrap sq o opt g₀ deltaT disp nO 1 d = .ok (b, g₁)) b →
      MadeBy (fun b => msdBootstrap sq o opt g₀ deltaT disp nO 1 d = .ok (b, g₁)) (afterCalls b cs) := by
    intro cs
    induction cs with
    | nil => intro b h; exact h
    | cons c cs ih => intro b h; exact ih _ (.fit c h)
  obtain ⟨b', h1, h2⟩ := C58_msd_partial (alpha := alpha) (g := g) hn (hm cs b0 (.base h0))
  exact ⟨b', h1, behaveAlike_of h2⟩

/-- A run with three intervals, a fit, a dictionary and back, and a second fit that succeeds. -/
example : ∃ b0 g b', msdBootstrap id (exOracle ℚ) (exOpts ℚ) () [1, 2, 3] threeDisp [2, 2, 2] 1 "xyz" = .ok (b0, g) ∧ threeDisp.length ≤ [2, 2, 2].length ∧
    msdReload id (exOracle ℚ) 1 () (afterCalls b0 [.diffusion exLib (exArgs 2 true)]) = .ok b' ∧
    (b'.diffusionCoefficient.map List.length) = some 4 ∧ (Kinisi.diffusion exLib (exArgs 1 true) b').2 = .ok () := by
  have h : ∃ r, msdBootstrap id (exOracle ℚ) (exOpts ℚ) () [1, 2, 3] threeDisp [2, 2, 2] 1 "xyz" = .ok r := ok_of_isSome (by decide +kernel)
  obtain ⟨⟨b0, g⟩, hr⟩ := h
  obtain ⟨b', hb, hs⟩ := C143_msd id (exOracle ℚ) (exOpts ℚ) () g () 1 [1, 2, 3] threeDisp [2, 2, 2] (by decide) "xyz" b0 hr [.diffusion exLib (exArgs 2 true)]
  have h1 : ((msdBootstrap id (exOracle ℚ) (exOpts ℚ) () [1, 2, 3] threeDisp [2, 2, 2] 1 "xyz").toOption.map fun r =>
      (afterCalls r.1 [.diffusion exLib (exArgs 2 true)]).diffusionCoefficient.map List.length) = some (some 4) := by decide +kernel
  have h2 : ((msdBootstrap id (exOracle ℚ) (exOpts ℚ) () [1, 2, 3] threeDisp [2, 2, 2] 1 "xyz").toOption.map fun r =>
      ((FitCall.diffusion exLib (exArgs 1 true)).run (afterCalls r.1 [.diffusion exLib (exArgs 2 true)])).2.toOption) = some (some ()) := by decide +kernel
  rw [hr] at h1 h2
  simp only [Except.toOption, Option.map_some, Option.some.injEq] at h1
  refine ⟨b0, g, b', hr, by decide, hb, ?_, ?_⟩
  · obtain ⟨p, m, q, rfl⟩ := sameSaved_iff.mp (hs []).1
    exact h1
  · have := (hs []).2.1 (.diffusion exLib (exArgs 1 true))
    refine this.trans (ok_of_toOption ?_)
    exact Option.some.inj h2

/-- **C143 (MSTD).** The same for the total displacements. -/
theorem C143_mstd (sq : K → K) (o : Oracle K G) (opt : BootOpts K) (g₀ g₁ g : G) (alpha : K) (deltaT : List K) (disp : List (Arr3 K))
    (nO : List K) (hn : disp.length ≤ nO.length) (d : String) (b0 : Boot K) (h0 : mstdBootstrap sq o opt g₀ deltaT disp nO 1 d = .ok (b0, g₁))
    (cs : List (FitCall K)) : ∃ b', mstdReload sq o alpha g (afterCalls b0 cs) = .ok b' ∧ BehaveAlike (afterCalls b0 cs) b' := by
  have hm : ∀ (cs : List (FitCall K)) (b : Boot K), MadeBy (fun b => mstdBootstrap sq o opt g₀ deltaT disp nO 1 d = .ok (b, g₁)) b →
      MadeBy (fun b => mstdBootstrap sq o opt g₀ deltaT disp nO 1 d = .ok (b, g₁)) (afterCalls b cs) := by
    intro cs
    induction cs with
    | nil => intro b h; exact h
    | cons c cs ih => intro b h; exact ih _ (.fit c h)
  obtain ⟨b', h1, h2⟩ := C58_mstd_partial (alpha := alpha) (g := g) hn (hm cs b0 (.base h0))
  exact ⟨b', h1, behaveAlike_of h2⟩

example : (mstdBootstrap id (exOracle ℚ) (exOpts ℚ) () [1, 2, 3] threeDisp [2, 2, 2] 1 "xyz").toOption.isSome = true ∧ threeDisp.length ≤ [2, 2, 2].length :=
  ⟨by decide +kernel, by decide⟩

/-- **C143 (analyzers).** An analyzer that is made into a dictionary and back holds an object that behaves like that of the analyzer, whatever
is done afterwards; also for conductivities. -/
theorem C143_analyzer {D : Type} (a : Analyzer K) (h : Reachable (G := G) 1 a.diff) (mk : List K → D) (hmk : Function.Injective mk) (L : DistLib K D)
    (hL : ∀ d, L.fromDict (.dict (L.toDict d)) = .ok d) :
    (∃ a', analyzerFromDict L (.dict (analyzerToDict L (ofAnalyzer mk a))) = .ok (ofAnalyzer mk a')) ∧
    ∀ a', analyzerFromDict L (.dict (analyzerToDict L (ofAnalyzer mk a))) = .ok (ofAnalyzer mk a') → BehaveAlike a.diff a'.diff := by
  have h1 := C58_analyzer h mk L hL
  refine ⟨⟨a, h1⟩, fun a' h2 => ?_⟩
  rw [h1] at h2
  have h3 : ofBoot mk a.diff = ofBoot mk a'.diff := congrArg PAnalyzer.diff (Except.ok.inj h2)
  exact behaveAlike_of (ofBoot_saved hmk h3)

/-- Such analyzers exist (also of the third kind), and distributions that survive: the list of the samples. -/
example : (∃ b : Boot ℚ, Reachable (G := Unit) 1 b) ∧ Function.Injective (id : List ℚ → List ℚ) ∧
    ∀ d : List ℚ, samplesLib.fromDict (.dict (samplesLib.toDict d)) = .ok d := by
  obtain ⟨b, g, hb, -⟩ := exMscd
  exact ⟨⟨b, .mscd hb⟩, Function.injective_id, samplesLib_roundtrip⟩

end Kinisi
