import Verif.Spec.Random
import Verif.Lemmas.Observables

/-!
# Property theorems: reproducibility with `random_state` (C99)
-/

set_option linter.unusedSectionVars false
set_option linter.unusedVariables false

namespace Kinisi
open Spec
variable {K : Type} [Field K] [LinearOrder K] [IsStrictOrderedRing K] [FloorRing K] {Γ : Type}

/-! ## Helper lemmas -/

theorem Spec.PassesState.tail {a : Act K Γ} {as : List (Act K Γ)} (h : PassesState (a :: as)) : PassesState as :=
  ⟨fun c hc => h.1 c (List.mem_cons_of_mem _ hc), fun f hf => h.2 f (List.mem_cons_of_mem _ hf)⟩

/-- An action other than a construction or a fit changes the global generator only. -/
theorem step_not_call (R : Rng K Γ) (s : Sess K Γ) {a : Act K Γ} (h : isCall a = false) :
    (sessStep R s a).1.obj = s.obj ∧ (sessStep R s a).1.boot = s.boot ∧ isResult (sessStep R s a).2 = false := by
  cases a with
  | build own c => cases h
  | fit own f => cases h
  | predict p k =>
    cases hb : s.boot with
    | none => simp [sessStep, predictAct, hb, isResult]
    | some b => simp [sessStep, predictAct, hb, isResult]
  | other f => exact ⟨rfl, rfl, rfl⟩

/-- A construction or fit with the caller's object does not look at the global generator. -/
theorem step_call (R : Rng K Γ) {s s' : Sess K Γ} (ho : s.obj = s'.obj) (hb : s.boot = s'.boot) {a : Act K Γ}
    (h : isCall a = true) (hp : PassesState [a]) :
    (sessStep R s a).1.obj = (sessStep R s' a).1.obj ∧ (sessStep R s a).1.boot = (sessStep R s' a).1.boot ∧
      (sessStep R s a).2 = (sessStep R s' a).2 ∧ isResult (sessStep R s a).2 = true := by
  cases a with
  | predict p k => cases h
  | other f => cases h
  | build own c =>
    cases own with
    | false => exact absurd List.mem_cons_self (hp.1 c)
    | true =>
    simp only [sessStep, buildAct, if_true, ← ho, ← hb]
    cases c.run R.sq R.resampler s.obj with
    | error e => exact ⟨rfl, rfl, rfl, rfl⟩
    | ok x => exact ⟨rfl, rfl, rfl, rfl⟩
  | fit own f =>
    cases own with
    | false => exact absurd List.mem_cons_self (hp.2 f)
    | true =>
    simp only [sessStep, fitAct, fitSeed, if_true, ← ho, ← hb]
    cases hs : s.boot with
    | none => exact ⟨ho, by rw [← hb], rfl, rfl⟩
    | some b => exact ⟨rfl, rfl, rfl, rfl⟩

theorem Spec.PassesState.head {a : Act K Γ} {as : List (Act K Γ)} (h : PassesState (a :: as)) : PassesState [a] :=
  ⟨fun c hc => h.1 c (by rw [List.mem_singleton] at hc; rw [hc]; exact List.mem_cons_self),
   fun f hf => h.2 f (by rw [List.mem_singleton] at hf; rw [hf]; exact List.mem_cons_self)⟩

/-- The results of a session are those of the session with the constructions and fits alone. -/
theorem results_filter (R : Rng K Γ) : ∀ (as : List (Act K Γ)) (s s' : Sess K Γ), PassesState as → s.obj = s'.obj → s.boot = s'.boot →
    (sessOut R s as).filter isResult = (sessOut R s' (as.filter isCall)).filter isResult
  | [], _, _, _, _, _ => rfl
  | a :: as, s, s', hp, ho, hb => by
    cases hc : isCall a with
    | true =>
      obtain ⟨h1, h2, h3, h4⟩ := step_call R ho hb hc hp.head
      rw [List.filter_cons_of_pos hc]
      simp only [sessOut]
      rw [List.filter_cons_of_pos h4, List.filter_cons_of_pos (by rw [← h3]; exact h4), h3,
        results_filter R as _ _ hp.tail h1 h2]
    | false =>
      obtain ⟨h1, h2, h3⟩ := step_not_call R s hc
      rw [List.filter_cons_of_neg (by rw [hc]; exact Bool.false_ne_true)]
      simp only [sessOut]
      rw [List.filter_cons_of_neg (by rw [h3]; exact Bool.false_ne_true)]
      exact results_filter R as _ _ hp.tail (h1.trans ho) (h2.trans hb)

theorem observeAll_notFitted {sq : K → K} {o : Oracle K Γ} {opt : BootOpts K} {Q : Quantity K} {nO : List K} {count : ℕ}
    {deltaT : List K} {disp : List (Arr3 K)} {nO' : List K} {sub : ℤ} {dimension : String} {b0 b : Boot K} {g g' : Γ}
    (h0 : bootInit deltaT disp nO' sub dimension = .ok b0) (h : observeAll sq o opt Q nO count b0 g = .ok (b, g')) : NotFitted b := by
  obtain ⟨P, -, -, -, -, b1, hfix, rfl⟩ := observeAll_inv (bootInit_empty h0) h
  obtain ⟨ds, dts, sel, d0, -, -, -, -, rfl⟩ := bootInit_inv h0
  have h1 : b1.startDt = none := by rw [hfix]
  have h2 : b1.gradient = none := by rw [hfix]
  exact ⟨h1, h2⟩

/-- A constructor makes no fit. -/
theorem build_notFitted {sq : K → K} {o : Oracle K Γ} {g g' : Γ} {c : Build K} {b : Boot K} (h : c.run sq o g = .ok (b, g')) :
    NotFitted b := by
  cases c with
  | msd a =>
    simp only [Build.run, msdBootstrap] at h
    cases hb : bootInit a.deltaT a.disp a.nO a.sub a.dimension with
    | error e => rw [hb] at h; cases h
    | ok b0 => rw [hb] at h; exact observeAll_notFitted hb h
  | mstd a =>
    simp only [Build.run, mstdBootstrap] at h
    cases hb : bootInit a.deltaT a.disp a.nO a.sub a.dimension with
    | error e => rw [hb] at h; cases h
    | ok b0 => rw [hb] at h; exact observeAll_notFitted hb h
  | mscd a q =>
    simp only [Build.run, mscdBootstrap] at h
    cases hb : bootInit a.deltaT a.disp a.nO a.sub a.dimension with
    | error e => rw [hb] at h; cases h
    | ok b0 => rw [hb] at h; exact observeAll_notFitted hb h

/-- Without a fit `posterior_predictive` raises before a random number is used. -/
theorem predict_notFitted {b : Boot K} (h : NotFitted b) (rvs rvs' : List K → List (List (Option K)) → ℕ → ℕ → List (List K))
    (draw draw' : ℕ → ℕ → ℕ) (p : Option ℕ) (k : ℕ) :
    posteriorPredictive rvs draw b p k = posteriorPredictive rvs' draw' b p k := by
  unfold posteriorPredictive posteriorCount startOf samplesOf
  rw [h.1, h.2]
  cases p <;> rfl

/-- The invariant of two sessions with the same object: the global generators agree, unless no fit was made. -/
def Alike (s s' : Sess K Γ) : Prop :=
  s.obj = s'.obj ∧ s.boot = s'.boot ∧ (s.glob = s'.glob ∨ ∀ b, s.boot = some b → NotFitted b)

theorem step_alike (R : Rng K Γ) {s s' : Sess K Γ} (h : Alike s s') {a : Act K Γ} (hp : PassesState [a]) :
    Alike (sessStep R s a).1 (sessStep R s' a).1 ∧ (sessStep R s a).2 = (sessStep R s' a).2 := by
  obtain ⟨ho, hb, hg⟩ := h
  cases a with
  | build own c =>
    cases own with
    | false => exact absurd List.mem_cons_self (hp.1 c)
    | true =>
    simp only [sessStep, buildAct, if_true, ← ho, ← hb]
    cases hc : c.run R.sq R.resampler s.obj with
    | error e =>
      refine ⟨⟨rfl, rfl, ?_⟩, rfl⟩
      rcases hg with hg | hg
      · left; dsimp only; rw [hg]
      · right; exact hg
    | ok x =>
      obtain ⟨b, o⟩ := x
      refine ⟨⟨rfl, rfl, Or.inr ?_⟩, rfl⟩
      intro b' hb'
      obtain rfl := Option.some.inj hb'
      exact build_notFitted hc
  | fit own f =>
    cases own with
    | false => exact absurd List.mem_cons_self (hp.2 f)
    | true =>
    simp only [sessStep, fitAct, fitSeed, if_true, ← ho, ← hb]
    cases hs : s.boot with
    | none => exact ⟨⟨ho, hb, Or.inr (fun b h => by rw [hs] at h; cases h)⟩, rfl⟩
    | some b => exact ⟨⟨rfl, rfl, Or.inl rfl⟩, rfl⟩
  | predict p k =>
    simp only [sessStep, predictAct, ← ho, ← hb]
    cases hs : s.boot with
    | none => exact ⟨⟨ho, hb, Or.inr (fun b h => by rw [hs] at h; cases h)⟩, rfl⟩
    | some b =>
      rcases hg with hg | hg
      · refine ⟨⟨rfl, rfl, Or.inl ?_⟩, ?_⟩
        · dsimp only; rw [hg]
        · dsimp only; rw [hg]
      · have hb' := hg b hs
        refine ⟨⟨rfl, rfl, Or.inr (fun b1 h1 => by obtain rfl := Option.some.inj h1; exact hb')⟩, ?_⟩
        dsimp only
        rw [predict_notFitted hb' (R.rvs s.glob) (R.rvs s'.glob) (R.draw s.glob) (R.draw s'.glob)]
  | other f =>
    refine ⟨⟨ho, hb, ?_⟩, rfl⟩
    rcases hg with hg | hg
    · left; simp only [sessStep]; rw [hg]
    · right; exact hg

/-! ## Property theorems -/

/-- **Results come from the caller's generator alone.**  Take two sessions that start with the same `RandomState` and the same object and that make the same
constructions and fits, always passing the `RandomState`.  Whatever the states of numpy's global generator, and whatever else is done with it or with
`posterior_predictive` in between, the results of all constructions and fits are the same. -/
theorem C99_results_partial (R : Rng K Γ) {s s' : Sess K Γ} (ho : s.obj = s'.obj) (hb : s.boot = s'.boot) {as as' : List (Act K Γ)}
    (hp : PassesState as) (hp' : PassesState as') (h : as.filter isCall = as'.filter isCall) :
    (sessOut R s as).filter isResult = (sessOut R s' as').filter isResult := by
  rw [results_filter R as s s' hp ho hb, results_filter R as' s' s' hp' rfl rfl, h]

/-- **Everything is reproducible from the start.**  For two runs of the same session that start without a fitted object, every output, those of
`posterior_predictive` included, is the same, whatever the states of numpy's global generator at the start. -/
theorem C99_session_partial (R : Rng K Γ) {s s' : Sess K Γ} (ho : s.obj = s'.obj) (hb : s.boot = s'.boot)
    (hn : ∀ b, s.boot = some b → NotFitted b) {as : List (Act K Γ)} (hp : PassesState as) : sessOut R s as = sessOut R s' as := by
  have key : ∀ (as : List (Act K Γ)) (s s' : Sess K Γ), Alike s s' → PassesState as → sessOut R s as = sessOut R s' as := by
    intro as
    induction as with
    | nil => intro _ _ _ _; rfl
    | cons a as ih =>
      intro s s' h hp
      obtain ⟨h1, h2⟩ := step_alike R h hp.head
      simp only [sessOut]
      rw [h2, ih _ _ h1 hp.tail]
  exact key as s s' ⟨ho, hb, Or.inr hn⟩ hp

/-- **The caller's own random numbers are lost.**  After a fit with a `RandomState` numpy's global generator is in a state that does not depend on the one before: a caller who
seeded it, with whatever seed, goes on with the numbers that follow from the `RandomState`.  The `RandomState` itself is not advanced, so that a second fit starts from the
same numbers. -/
theorem C99_violated_global (R : Rng K Γ) (s : Sess K Γ) {b : Boot K} (hb : s.boot = some b) (f : Fit K) (γ : Γ) :
    (sessStep R { s with glob := γ } (.fit true f)).1.glob = (sessStep R s (.fit true f)).1.glob ∧
      (sessStep R s (.fit true f)).1.obj = s.obj := by
  simp [sessStep, fitAct, fitSeed, hb]

/-! ## Examples -/

/-- A generator whose state is a number: a draw returns the number and adds one. -/
def exRng : Rng ℚ ℕ where
  seed := fun k => k
  word := fun γ => γ
  sq := fun x => x
  resampler := ⟨fun g m n => (fun _ => Fin.ofNat (m + 1) g, g + 1), fun g k _ => (fun _ => 1, g + 1), fun g m => (Fin.ofNat (m + 1) g, g + 1),
    fun _ => .ok (some 1), fun _ => .error .valueError⟩
  globAfterBuild := fun γ _ _ => γ + 1
  objAfterError := fun γ _ => γ
  lib := fun γ _ _ => ⟨fun _ _ _ => .ok 0, fun m A => .ok (fun _ => 1, 1), fun m A => .ok A, fun m A => .ok 0, fun m A => .ok A, fun _ _ => .ok 1,
    fun _ x => .ok x, fun i j => γ, fun _ _ _ => .ok (), fun s w => [γ, γ], fun _ _ => 0, fun _ => .ok ()⟩
  afterFit := fun γ _ _ => γ + 5
  draw := fun γ n i => (γ + i) % n
  rvs := fun _ mu _ k _ => List.replicate k mu
  afterPredict := fun γ _ _ _ => γ + 1

/-- A fitted object with two samples. -/
def exFitted : Boot ℚ :=
  { displacements := [], deltaT := [1, 2], maxObs := 1, nO := [1, 1], subSampleDt := 1, dimension := "xyz", axes := [0, 1, 2], dims := 3,
    dt := [1, 2], startDt := some 1, gradient := some [1, 3], intercept := some [0, 0], covariance := some [[some 1, some 0], [some 0, some 1]] }

/-- The result of a prediction, if there is one. -/
def Out.rows? : Out K → Option (List (List K))
  | .predicted (.ok r) => some r
  | _ => none

/-- **`posterior_predictive` is not reproducible by itself.**  For an object that was fitted before, for instance loaded from a file, it gives other numbers for
another state of numpy's global generator, and there is no `random_state` to pass. -/
theorem C99_violated_predictive :
    ¬ ∀ (R : Rng ℚ ℕ) (s s' : Sess ℚ ℕ), s.obj = s'.obj → s.boot = s'.boot → ∀ as, PassesState as → sessOut R s as = sessOut R s' as := by
  intro h
  have h1 := h exRng ⟨0, 0, some exFitted⟩ ⟨1, 0, some exFitted⟩ rfl rfl [.predict (some 1) 1]
    ⟨fun c hc => by simp at hc, fun f hf => by simp at hf⟩
  have h2 := congrArg (List.map Out.rows?) h1
  revert h2
  decide +kernel

/-- Displacements of two atoms over one and over two steps. -/
def exMoves : List (Arr3 ℚ) := [⟨2, 2, fun i j k => i + j + 1⟩, ⟨2, 2, fun i j k => 2 * i + j + 1⟩]

/-- A session with a construction, a fit and a prediction, always passing the object. -/
def exSession : List (Act ℚ ℕ) :=
  [.other (· + 7), .build true (.msd ⟨⟨true, false, 10, 10, 0⟩, [1, 2], exMoves, [2, 2], 1, "xyz"⟩),
    .fit true (.gls ⟨1, 10, false, true, 5, 4, 2, 1⟩), .predict none 1]

/-- The number of rows of a prediction, the number of samples of a fit. -/
def Out.size? : Out K → Option ℕ
  | .predicted (.ok r) => some r.length
  | .fitted b (.ok _) => b.gradient.map List.length
  | .built (.ok b) => some b.nBoot.length
  | _ => none

/-- In this session everything succeeds. -/
example : (sessOut exRng ⟨100, 3, none⟩ exSession).map Out.size? = [none, some 2, some 20, some 20] := by decide +kernel

theorem exSession_passes : PassesState exSession := by
  constructor
  · intro c hc; simp [exSession] at hc
  · intro f hf; simp [exSession] at hf

/-- `C99_results_partial` and `C99_session_partial`: another state of the global generator, and (for the first) without the foreign draws. -/
example : (sessOut exRng ⟨100, 3, none⟩ exSession).filter isResult = (sessOut exRng ⟨5, 3, none⟩ (exSession.filter isCall)).filter isResult ∧
    sessOut exRng ⟨100, 3, none⟩ exSession = sessOut exRng ⟨5, 3, none⟩ exSession := by
  constructor
  · refine C99_results_partial exRng (s := ⟨100, 3, none⟩) (s' := ⟨5, 3, none⟩) rfl rfl exSession_passes ?_ (by rw [List.filter_filter]; simp)
    constructor
    · intro c hc; exact exSession_passes.1 c (List.mem_of_mem_filter hc)
    · intro f hf; exact exSession_passes.2 f (List.mem_of_mem_filter hf)
  · exact C99_session_partial exRng (s := ⟨100, 3, none⟩) (s' := ⟨5, 3, none⟩) rfl rfl (fun b h => by cases h) exSession_passes

example : exSession.filter isCall ≠ exSession := by
  intro h
  have := congrArg List.length h
  revert this
  decide +kernel

/-- The global generator is really changed by a fit. -/
example : (sessStep exRng ⟨100, 3, some exFitted⟩ (.fit true (.gls ⟨1, 10, false, true, 5, 4, 2, 1⟩))).1.glob = 8 := by decide +kernel

end Kinisi
