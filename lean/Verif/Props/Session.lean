import Verif.Props.History
import Verif.Props.Random

/-!
# C99: the calls of a session give what the same calls give outside
-/

set_option linter.unusedSectionVars false
set_option linter.unusedVariables false

namespace Kinisi
open Spec
variable {K : Type} [Field K] [LinearOrder K] [IsStrictOrderedRing K] [FloorRing K] {Γ : Type}

/-- What a fit of `b` leaves in the three coefficients of `b'`, given the gradients `g`: the coefficient of the call is computed from the gradients, the other two stay. -/
def FitLeaves (b b' : Boot K) (g : List K) : Fit K → Prop
  | .gls _ => b'.diffusionCoefficient = b.diffusionCoefficient ∧ b'.jumpDiffusionCoefficient = b.jumpDiffusionCoefficient ∧ b'.sigma = b.sigma
  | .diffusion _ => b'.diffusionCoefficient = some (g.map fun x => x / (2 * (b.dims : K)) * angstromSqPerPs) ∧ b'.jumpDiffusionCoefficient = b.jumpDiffusionCoefficient ∧ b'.sigma = b.sigma
  | .jump _ => b'.diffusionCoefficient = b.diffusionCoefficient ∧ (∃ d0 rest, b.displacements = d0 :: rest ∧ b'.jumpDiffusionCoefficient = some (g.map fun x => x / (2 * (b.dims : K)) * angstromSqPerPs / (d0.n0 : K))) ∧ b'.sigma = b.sigma
  | .conductivity C _ T V => b'.diffusionCoefficient = b.diffusionCoefficient ∧ b'.jumpDiffusionCoefficient = b.jumpDiffusionCoefficient ∧
      (0 < C.nA → b'.sigma = some (g.map fun x => 1000 * (C.e ^ 2 * (x / (2 * (b.dims : K)) * angstromSqPerPs) / (V * angstromCubed * (C.R / C.nA) * T))))

/-- **C99, what a session does.** A fit of a session that succeeds leaves its result in the object of the session: the coefficient that the call is named after, from the gradients of this fit; the other two are untouched. -/
theorem C99_values (R : Rng K Γ) (s s' : Sess K Γ) (own : Bool) (f : Fit K) (b' : Boot K) (h : sessStep R s (.fit own f) = (s', .fitted b' (.ok ()))) :
    s'.boot = some b' ∧ ∃ b g, s.boot = some b ∧ b'.gradient = some g ∧ FitLeaves b b' g f := by
  have h : fitAct R own f s = (s', .fitted b' (.ok ())) := h
  unfold fitAct at h
  cases hb : s.boot with
  | none => rw [hb] at h; cases (Prod.mk.inj h).2
  | some b =>
  rw [hb] at h
  simp only at h
  obtain ⟨h1, h2⟩ := Prod.mk.inj h
  injection h2 with h3 h4
  have hr : f.run (R.lib (fitSeed R own s) f b) b = (b', .ok ()) := Prod.ext h3 h4
  refine ⟨by rw [← h1, ← h3], b, ?_⟩
  cases f with
  | gls a =>
    obtain ⟨b1, k1, k2, k3, k4, k5, k6⟩ := FitCall.run_ok (c := .gls (R.lib (fitSeed R own s) (.gls a) b) a) hr
    obtain ⟨-, -, -, -, r, m, cov, chain, g, c1, c2, e1, e2, e3, e4, e5, e6, e7, e8, e9⟩ := bootstrapGLS_ok (show bootstrapGLS _ a b = (b', .ok ()) from hr)
    exact ⟨g, rfl, e8, k4 (by intros; simp), k5 (by intros; simp), k6 (by intros; simp)⟩
  | diffusion a =>
    obtain ⟨b1, k1, k2, k3, k4, k5, k6⟩ := FitCall.run_ok (c := .diffusion (R.lib (fitSeed R own s) (.diffusion a) b) a) hr
    obtain ⟨g, d, g1, g2, rfl⟩ := C48_diffusion.1 hr
    exact ⟨g, rfl, g1, g2, k5 (by intros; simp), k6 (by intros; simp)⟩
  | jump a =>
    obtain ⟨b1, k1, k2, k3, k4, k5, k6⟩ := FitCall.run_ok (c := .jump (R.lib (fitSeed R own s) (.jump a) b) a) hr
    obtain ⟨g, d, d0, rest, g1, g2, g3, rfl⟩ := C48_diffusion.2 hr
    exact ⟨g, rfl, g1, k4 (by intros; simp), ⟨d0, rest, g3, g2⟩, k6 (by intros; simp)⟩
  | conductivity C a T V =>
    obtain ⟨b1, k1, k2, k3, k4, k5, k6⟩ := FitCall.run_ok (c := .conductivity (R.lib (fitSeed R own s) (.conductivity C a T V) b) C a T V) hr
    obtain ⟨c1, g, c, q1, q2, q3, e⟩ := conductivity_ok (show conductivity _ C a T V b = (b', .ok ()) from hr)
    refine ⟨g, rfl, by rw [e]; exact q2, k4 (by intros; simp), k5 (by intros; simp), fun hA => ?_⟩
    obtain ⟨g', s'', f1, f2, rfl⟩ := C48_conductivity hA (show conductivity _ C a T V b = (b', .ok ()) from hr)
    rw [e] at f1
    rw [show g = g' from Option.some.inj (q2.symm.trans f1)]
    exact f2

/-- **C99, what a session builds.** With the caller's object, the constructor draws from this object alone: the session holds what the constructor returns outside it, whatever the state of the global generator. -/
theorem C99_built (R : Rng K Γ) (s : Sess K Γ) (a : BuildArgs K) (q : Charge K) :
    (∀ b γ, msdBootstrap R.sq R.resampler a.opt s.obj a.deltaT a.disp a.nO a.sub a.dimension = .ok (b, γ) → (sessStep R s (.build true (.msd a))).1.boot = some b ∧ (sessStep R s (.build true (.msd a))).1.obj = γ) ∧
    (∀ b γ, mstdBootstrap R.sq R.resampler a.opt s.obj a.deltaT a.disp a.nO a.sub a.dimension = .ok (b, γ) → (sessStep R s (.build true (.mstd a))).1.boot = some b ∧ (sessStep R s (.build true (.mstd a))).1.obj = γ) ∧
    ∀ b γ, mscdBootstrap R.sq R.resampler a.opt s.obj a.deltaT a.disp q a.nO a.sub a.dimension = .ok (b, γ) → (sessStep R s (.build true (.mscd a q))).1.boot = some b ∧ (sessStep R s (.build true (.mscd a q))).1.obj = γ := by
  refine ⟨fun b γ h => ?_, fun b γ h => ?_, fun b γ h => ?_⟩ <;> simp [sessStep, buildAct, Build.run, h]

/-- What one action reports of the object is what it leaves. -/
theorem step_reports (R : Rng K Γ) (s : Sess K Γ) (a : Act K Γ) :
    (∀ b r, (sessStep R s a).2 = .fitted b r → (sessStep R s a).1.boot = some b) ∧
    ∀ b, (sessStep R s a).2 = .built (.ok b) → (sessStep R s a).1.boot = some b := by
  cases a with
  | other f => exact ⟨fun b r h => (by cases h), fun b h => by cases h⟩
  | predict p k =>
    simp only [sessStep, predictAct]
    cases s.boot <;> exact ⟨fun b r h => (by cases h), fun b h => by cases h⟩
  | fit own f =>
    simp only [sessStep, fitAct]
    cases s.boot with
    | none => exact ⟨fun b r h => (by cases h), fun b h => by cases h⟩
    | some b0 => exact ⟨fun b r h => (by cases h; rfl), fun b h => by cases h⟩
  | build own c =>
    simp only [sessStep, buildAct]
    cases own with
    | true =>
      simp only [if_true]
      cases c.run R.sq R.resampler s.obj with
      | error e => exact ⟨fun b r h => (by cases h), fun b h => by cases h⟩
      | ok x => exact ⟨fun b r h => (by cases h), fun b h => by cases h; rfl⟩
    | false =>
      simp only [Bool.false_eq_true, if_false]
      cases c.run R.sq R.resampler s.glob with
      | error e => exact ⟨fun b r h => (by cases h), fun b h => by cases h⟩
      | ok x => exact ⟨fun b r h => (by cases h), fun b h => by cases h; rfl⟩

/-- **C99, what is left at the end.** The object at the end of a session is the one that its last call reported: the object fitted, or the one built. -/
theorem C99_last (R : Rng K Γ) (s : Sess K Γ) (as : List (Act K Γ)) :
    (∀ b r, (sessOut R s as).getLast? = some (.fitted b r) → (sessEnd R s as).boot = some b) ∧
    ∀ b, (sessOut R s as).getLast? = some (.built (.ok b)) → (sessEnd R s as).boot = some b := by
  induction as generalizing s with
  | nil => exact ⟨fun b r h => (by cases h), fun b h => by cases h⟩
  | cons a as ih =>
    cases as with
    | nil =>
      obtain ⟨h1, h2⟩ := step_reports R s a
      exact ⟨fun b r h => h1 b r (Option.some.inj h), fun b h => h2 b (Option.some.inj h)⟩
    | cons a' as' =>
      have e : (sessOut R s (a :: a' :: as')).getLast? = (sessOut R (sessStep R s a).1 (a' :: as')).getLast? := by
        simp only [sessOut, List.getLast?_cons_cons]
      rw [e]
      exact ih (sessStep R s a).1

/-- **C99, the end of a session.** Two sessions with the same `RandomState`, object, constructions and fits, which always pass the `RandomState`, end with the same object and with the `RandomState` in the same
state, whatever was done with the global generator.  Missing: the global generator itself, see `C99_violated_global`. -/
theorem C99_end_partial (R : Rng K Γ) {s s' : Sess K Γ} (ho : s.obj = s'.obj) (hb : s.boot = s'.boot) {as as' : List (Act K Γ)}
    (hp : PassesState as) (hp' : PassesState as') (h : as.filter isCall = as'.filter isCall) :
    (sessEnd R s as).boot = (sessEnd R s' as').boot ∧ (sessEnd R s as).obj = (sessEnd R s' as').obj := by
  have key : ∀ (as : List (Act K Γ)) (s s' : Sess K Γ), PassesState as → s.obj = s'.obj → s.boot = s'.boot →
      (sessEnd R s as).boot = (sessEnd R s' (as.filter isCall)).boot ∧ (sessEnd R s as).obj = (sessEnd R s' (as.filter isCall)).obj := by
    intro as
    induction as with
    | nil => intro s s' _ ho hb; exact ⟨hb, ho⟩
    | cons a as ih =>
      intro s s' hp ho hb
      cases hc : isCall a with
      | true =>
        obtain ⟨h1, h2, -, -⟩ := step_call R ho hb hc hp.head
        rw [List.filter_cons_of_pos hc]
        exact ih _ _ hp.tail h1 h2
      | false =>
        obtain ⟨h1, h2, -⟩ := step_not_call R s hc
        rw [List.filter_cons_of_neg (by rw [hc]; exact Bool.false_ne_true)]
        exact ih _ _ hp.tail (h1.trans ho) (h2.trans hb)
  obtain ⟨e1, e2⟩ := key as s s' hp ho hb
  obtain ⟨e3, e4⟩ := key as' s' s' hp' rfl rfl
  rw [h] at e1 e2
  exact ⟨e1.trans e3.symm, e2.trans e4.symm⟩

/-! ## Examples -/

/-- A generator that is a counter, with the routines of the examples. -/
def exSessRng : Rng ℚ ℕ := { exRng with lib := fun _ _ _ => exLib }

/-- `C99_values`: a session with an object in which the diffusion coefficient is computed. -/
example : ∃ s' b', sessStep exSessRng ⟨100, 3, some exBoot⟩ (.fit true (.diffusion (exArgs 2 true))) = (s', .fitted b' (.ok ())) ∧
    b'.diffusionCoefficient = some [1 / 20000, 0, 1 / 12000, 1 / 30000] ∧ b'.jumpDiffusionCoefficient = none := by
  have o1 : (Kinisi.diffusion exLib (exArgs 2 true) exBoot).2.toOption = some () := by decide +kernel
  have o2 : (Kinisi.diffusion exLib (exArgs 2 true) exBoot).1.diffusionCoefficient = some [1 / 20000, 0, 1 / 12000, 1 / 30000] := by decide +kernel
  have h : sessStep exSessRng ⟨100, 3, some exBoot⟩ (.fit true (.diffusion (exArgs 2 true))) =
      ((sessStep exSessRng ⟨100, 3, some exBoot⟩ (.fit true (.diffusion (exArgs 2 true)))).1, .fitted (Kinisi.diffusion exLib (exArgs 2 true) exBoot).1 (.ok ())) := by
    refine Prod.ext rfl ?_
    show Out.fitted (Kinisi.diffusion exLib (exArgs 2 true) exBoot).1 (Kinisi.diffusion exLib (exArgs 2 true) exBoot).2 = _
    rw [congrArg Prod.snd (ok_of_outcome o1)]
  obtain ⟨-, b, g, hb, -, -, h2, -⟩ := C99_values exSessRng _ _ _ _ _ h
  refine ⟨_, _, h, o2, ?_⟩
  rw [h2, ← Option.some.inj hb]
  rfl

/-- `C99_built`: the constructor of the session in `exSession`. -/
example : (msdBootstrap exRng.sq exRng.resampler ⟨true, false, 10, 10, 0⟩ 3 [1, 2] exMoves [2, 2] 1 "xyz").toOption.map (fun p => p.1.n.length) = some 2 := by decide +kernel

/-- `C99_last`: numbers drawn from the global generator, then a fit; the object left has the diffusion coefficient of the fit. -/
example : (sessEnd exSessRng ⟨100, 3, some exBoot⟩ [.other (· + 1), .fit true (.diffusion (exArgs 2 true))]).boot = some (Kinisi.diffusion exLib (exArgs 2 true) exBoot).1 :=
  (C99_last exSessRng ⟨100, 3, some exBoot⟩ [.other (· + 1), .fit true (.diffusion (exArgs 2 true))]).1 _ (Kinisi.diffusion exLib (exArgs 2 true) exBoot).2 rfl

/-- `C99_end_partial`: two states of the global generator, and numbers drawn from it in one of the sessions only. -/
example : (sessEnd exSessRng ⟨100, 3, some exBoot⟩ [.other (· + 1), .fit true (.diffusion (exArgs 2 true))]).boot =
    (sessEnd exSessRng ⟨7, 3, some exBoot⟩ [.fit true (.diffusion (exArgs 2 true))]).boot :=
  (C99_end_partial exSessRng rfl rfl ⟨fun c h => by simp at h, fun f h => by simp at h⟩ ⟨fun c h => by simp at h, fun f h => by simp at h⟩ rfl).1

end Kinisi
