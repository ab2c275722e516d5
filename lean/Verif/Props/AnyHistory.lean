import Verif.Props.History
import Verif.Props.Observables

/-!
# C112: the coefficients after any calls, also after some that raised
-/

set_option linter.unusedSectionVars false
set_option linter.unusedVariables false

namespace Kinisi
open Spec
variable {K : Type} [Field K] [LinearOrder K] [IsStrictOrderedRing K] [FloorRing K] {G : Type}

/-- The three coefficients. -/
inductive Coefficient
  | D | DJ | sigma
  deriving DecidableEq

/-- What the properties `D`, `D_J` and `sigma` return. -/
def Coefficient.read : Coefficient → Boot K → Option (List K)
  | .D, b => b.diffusionCoefficient
  | .DJ, b => b.jumpDiffusionCoefficient
  | .sigma, b => b.sigma

/-- The coefficient that a call is meant to compute. -/
def FitCall.computes : FitCall K → Option Coefficient
  | .gls _ _ => none
  | .diffusion _ _ => some .D
  | .jump _ _ => some .DJ
  | .conductivity _ _ _ _ _ => some .sigma

/-- The object after the calls `cs`, where exceptions are caught and the object is used again. -/
def afterCalls (b : Boot K) (cs : List (FitCall K)) : Boot K := cs.foldl (fun b c => (c.run b).1) b

theorem run_data (c : FitCall K) (b : Boot K) : SameData b (c.run b).1 := by
  cases h : c.run b with
  | mk b' o =>
  cases o with
  | error e =>
    rcases FitCall.run_error h with h | h
    · exact (bootstrapGLS_error h).1.sameData
    · exact (bootstrapGLS_ok h).1.sameData
  | ok u =>
    obtain ⟨b2, h3, -, h4, -⟩ := FitCall.run_ok h
    exact (bootstrapGLS_ok h3).1.sameData.trans h4

theorem afterCalls_data (b : Boot K) (cs : List (FitCall K)) : SameData b (afterCalls b cs) := by
  induction cs generalizing b with
  | nil => exact ⟨rfl, rfl, rfl, rfl, rfl, rfl⟩
  | cons c cs ih => exact (run_data c b).trans (ih _)

/-- Whether a call succeeds, and what coefficient it gives, depends on the data only. -/
theorem run_same (c : FitCall K) {b b' b1 : Boot K} (h : SameData b b') (hb : c.run b = (b1, .ok ())) :
    ∃ b1', c.run b' = (b1', .ok ()) ∧ ∀ k, c.computes = some k → k.read b1' = k.read b1 := by
  cases c with
  | gls L a =>
    obtain ⟨b1', h1, -⟩ := bootstrapGLS_same L a h hb
    exact ⟨b1', h1, fun k hk => by cases hk⟩
  | diffusion L a =>
    simp only [FitCall.run, Kinisi.diffusion] at hb ⊢
    cases hg : bootstrapGLS L a b with
    | mk x o =>
    rw [hg] at hb
    cases o with
    | error e => cases (Prod.mk.inj hb).2
    | ok u =>
    obtain ⟨x', h1, h2⟩ := bootstrapGLS_same L a h hg
    have hd : x'.dims = x.dims := by
      rw [← (bootstrapGLS_ok hg).1.sameData.2.2.2.2.1, ← (bootstrapGLS_ok h1).1.sameData.2.2.2.2.1, h.2.2.2.2.1]
    rw [h1]
    simp only at hb ⊢
    rw [hd, ← h2.2.2.2.2.2.2.2.1]
    cases hs : scaled L (20000 * (x.dims : K)) x.gradient with
    | error e => rw [hs] at hb; cases (Prod.mk.inj hb).2
    | ok d =>
      rw [hs] at hb
      obtain rfl := (Prod.mk.inj hb).1
      refine ⟨_, rfl, fun k hk => ?_⟩
      obtain rfl := Option.some.inj hk
      rfl
  | jump L a =>
    simp only [FitCall.run, jumpDiffusion] at hb ⊢
    cases hg : bootstrapGLS L a b with
    | mk x o =>
    rw [hg] at hb
    cases o with
    | error e => cases (Prod.mk.inj hb).2
    | ok u =>
    obtain ⟨x', h1, h2⟩ := bootstrapGLS_same L a h hg
    have hd : x'.dims = x.dims := by
      rw [← (bootstrapGLS_ok hg).1.sameData.2.2.2.2.1, ← (bootstrapGLS_ok h1).1.sameData.2.2.2.2.1, h.2.2.2.2.1]
    have hp : x'.displacements = x.displacements := by
      rw [← (bootstrapGLS_ok hg).1.sameData.2.2.2.2.2, ← (bootstrapGLS_ok h1).1.sameData.2.2.2.2.2, h.2.2.2.2.2]
    rw [h1]
    simp only at hb ⊢
    rw [hp, hd, ← h2.2.2.2.2.2.2.2.1]
    cases hdis : x.displacements with
    | nil => rw [hdis] at hb; cases (Prod.mk.inj hb).2
    | cons d0 rest =>
    rw [hdis] at hb
    simp only at hb ⊢
    cases hs : scaled L (20000 * (x.dims : K) * (d0.n0 : K)) x.gradient with
    | error e => rw [hs] at hb; cases (Prod.mk.inj hb).2
    | ok d =>
      rw [hs] at hb
      obtain rfl := (Prod.mk.inj hb).1
      refine ⟨_, rfl, fun k hk => ?_⟩
      obtain rfl := Option.some.inj hk
      rfl
  | conductivity L C a T V =>
    simp only [FitCall.run, Kinisi.conductivity] at hb ⊢
    cases hg : bootstrapGLS L a b with
    | mk x o =>
    rw [hg] at hb
    cases o with
    | error e => cases (Prod.mk.inj hb).2
    | ok u =>
    obtain ⟨x', h1, h2⟩ := bootstrapGLS_same L a h hg
    have hd : x'.dims = x.dims := by
      rw [← (bootstrapGLS_ok hg).1.sameData.2.2.2.2.1, ← (bootstrapGLS_ok h1).1.sameData.2.2.2.2.1, h.2.2.2.2.1]
    rw [h1]
    simp only at hb ⊢
    rw [hd, ← h2.2.2.2.2.2.2.2.1]
    cases hs : samplesOf x.gradient with
    | error e => rw [hs] at hb; cases (Prod.mk.inj hb).2
    | ok g =>
    rw [hs] at hb
    simp only at hb ⊢
    cases hc : conversion C T V with
    | error e => rw [hc] at hb; cases (Prod.mk.inj hb).2
    | ok cc =>
    rw [hc] at hb
    simp only at hb ⊢
    split_ifs at hb ⊢ with hz
    · cases (Prod.mk.inj hb).2
    cases hl : L.dist ((g.map fun y => y / (20000 * (x.dims : K))).map fun y => y * cc) with
    | error e => rw [hl] at hb; cases (Prod.mk.inj hb).2
    | ok d =>
      rw [hl] at hb
      obtain rfl := (Prod.mk.inj hb).1
      refine ⟨_, rfl, fun k hk => ?_⟩
      obtain rfl := Option.some.inj hk
      rfl

/-- A call that is not meant for the coefficient, or that raises, leaves it as it is. -/
theorem run_keeps {c : FitCall K} {k : Coefficient} {b : Boot K} (h : c.computes = some k → (c.run b).2 ≠ .ok ()) :
    k.read (c.run b).1 = k.read b := by
  cases hr : c.run b with
  | mk b' o =>
  cases o with
  | error e =>
    obtain ⟨⟨h1, h2, h3, -⟩, -⟩ := C50_failed_fit_partial hr
    cases k
    · exact h1
    · exact h2
    · exact h3
  | ok u =>
    have hne : c.computes ≠ some k := fun hk => h hk (by rw [hr])
    obtain ⟨-, -, -, -, h1, h2, h3⟩ := FitCall.run_ok hr
    cases k
    · exact h1 fun L a e => hne (by rw [e]; rfl)
    · exact h2 fun L a e => hne (by rw [e]; rfl)
    · exact h3 fun L C a T V e => hne (by rw [e]; rfl)

theorem after_keeps {k : Coefficient} {b b0 : Boot K} (hd : SameData b b0) {cs : List (FitCall K)}
    (h : ∀ c ∈ cs, c.computes = some k → (c.run b).2 ≠ .ok ()) : k.read (afterCalls b0 cs) = k.read b0 := by
  induction cs generalizing b0 with
  | nil => rfl
  | cons c cs ih =>
    show k.read (afterCalls (c.run b0).1 cs) = _
    rw [ih (hd.trans (run_data c b0)) fun c hc => h c (List.mem_cons_of_mem _ hc)]
    refine run_keeps fun hk ho => h c List.mem_cons_self hk ?_
    obtain ⟨b1, h1, -⟩ := run_same c hd.symm (show c.run b0 = ((c.run b0).1, .ok ()) by rw [← ho])
    rw [h1]

/-- **C112, the latest success.** After any sequence of calls, of which any may have raised, D (D_J, sigma) is exactly what the latest call meant
for it that succeeds would give on the object before all calls. -/
theorem C112_latest (b : Boot K) (pre post : List (FitCall K)) (c : FitCall K) (k : Coefficient) (hk : c.computes = some k)
    (hc : (c.run b).2 = .ok ()) (hpost : ∀ c' ∈ post, c'.computes = some k → (c'.run b).2 ≠ .ok ()) :
    k.read (afterCalls b (pre ++ c :: post)) = k.read (c.run b).1 := by
  have h1 : afterCalls b (pre ++ c :: post) = afterCalls (c.run (afterCalls b pre)).1 post := by
    simp [afterCalls]
  have hd := afterCalls_data b pre
  rw [h1, after_keeps (hd.trans (run_data c _)) hpost]
  obtain ⟨b1, h2, h3⟩ := run_same c hd (show c.run b = ((c.run b).1, .ok ()) by rw [← hc])
  rw [h2]
  exact h3 k hk

/-- **C112, no success.** If no call meant for it succeeds, it is what it was before. -/
theorem C112_none (b : Boot K) (cs : List (FitCall K)) (k : Coefficient)
    (h : ∀ c ∈ cs, c.computes = some k → (c.run b).2 ≠ .ok ()) : k.read (afterCalls b cs) = k.read b :=
  after_keeps ⟨rfl, rfl, rfl, rfl, rfl, rfl⟩ h

/-- **C112, each call.** Whether a call succeeds does not depend on the calls before it. -/
theorem C112_outcome (b : Boot K) (cs : List (FitCall K)) (c : FitCall K) :
    (c.run (afterCalls b cs)).2 = .ok () ↔ (c.run b).2 = .ok () := by
  have hd := afterCalls_data b cs
  constructor
  · intro h
    obtain ⟨b1, h1, -⟩ := run_same c hd.symm (show c.run _ = ((c.run _).1, .ok ()) by rw [← h])
    rw [h1]
  · intro h
    obtain ⟨b1, h1, -⟩ := run_same c hd (show c.run _ = ((c.run _).1, .ok ()) by rw [← h])
    rw [h1]

/-- A new object: nothing of a fit is set. -/
def Unfitted (b : Boot K) : Prop :=
  (∀ k : Coefficient, k.read b = none) ∧ b.gradient = none ∧ b.intercept = none ∧ b.flatchain = none ∧ b.covariance = none ∧ b.startDt = none

theorem unfitted_of {deltaT : List K} {disp : List (Arr3 K)} {nO : List K} {sub : ℤ} {d : String} {b0 b1 b : Boot K} {l : List K}
    (h : bootInit deltaT disp nO sub d = .ok b0) (hf : SameFixed b0 b1) (hb : b = { b1 with nO := l }) : Unfitted b := by
  obtain ⟨ds, dts, sel, d0, -, -, -, -, rfl⟩ := bootInit_inv h
  rw [hb, hf]
  exact ⟨fun k => by cases k <;> rfl, rfl, rfl, rfl, rfl, rfl⟩

/-- **C112, before the first fit.** A new object of any of the three classes has no D, D_J, sigma, gradient, intercept, flat chain and covariance
matrix, and the distribution, the flat chains of the analyzers and the posterior predictive raise an exception. -/
theorem C112_new (sq : K → K) (o : Oracle K G) (opt : BootOpts K) (g g' : G) (deltaT : List K) (disp : List (Arr3 K)) (q : Charge K)
    (nO : List K) (sub : ℤ) (d : String) (b : Boot K)
    (h : msdBootstrap sq o opt g deltaT disp nO sub d = .ok (b, g') ∨ mstdBootstrap sq o opt g deltaT disp nO sub d = .ok (b, g') ∨
      mscdBootstrap sq o opt g deltaT disp q nO sub d = .ok (b, g')) :
    (b.diffusionCoefficient = none ∧ b.jumpDiffusionCoefficient = none ∧ b.sigma = none ∧ b.gradient = none ∧ b.intercept = none ∧
      b.flatchain = none ∧ b.covariance = none) ∧
    distribution b = .error .attributeError ∧
    (∀ X : Coefficient, analyzerFlatchain (X.read) b = .error .attributeError) ∧
    ∀ rvs draw nPost nPred, ∃ e, posteriorPredictive rvs draw b nPost nPred = .error e := by
  have hu : Unfitted b := by
    rcases h with h | h | h
    · obtain ⟨b0, P, h1, -, -, -, b1, h2, h3⟩ := msdBootstrap_inv h
      exact unfitted_of h1 h2 h3
    · obtain ⟨b0, P, h1, -, -, -, b1, h2, h3⟩ := mstdBootstrap_inv h
      exact unfitted_of h1 h2 h3
    · obtain ⟨b0, P, h1, -, -, -, b1, h2, h3⟩ := mscdBootstrap_inv h
      exact unfitted_of h1 h2 h3
  obtain ⟨u1, u2, u3, u4, u5, u6⟩ := hu
  refine ⟨⟨u1 .D, u1 .DJ, u1 .sigma, u2, u3, u4, u5⟩, ?_, fun X => ?_, fun rvs draw nPost nPred => ?_⟩
  · unfold distribution
    rw [u2]; rfl
  · unfold analyzerFlatchain
    rw [u1 X]; rfl
  · unfold posteriorPredictive
    cases nPost with
    | none =>
      refine ⟨.attributeError, ?_⟩
      unfold posteriorCount
      rw [u2]; rfl
    | some n =>
      refine ⟨.typeError, ?_⟩
      unfold posteriorCount startOf
      rw [u6]; rfl

/-- A fit that raises (no interval from 4 on), a successful one, another that raises, then a conductivity: D is that of the second call. -/
example : (FitCall.run (.diffusion exLib (exArgs 4 true)) exBoot).2.toOption = none ∧
    Coefficient.D.read (afterCalls exBoot [.diffusion exLib (exArgs 4 true), .diffusion exLib (exArgs 2 true), .diffusion exLib (exArgs 4 true),
      .conductivity exLib ⟨6, 1, 8⟩ (exArgs 1 true) 300 1000]) = some [1 / 20000, 0, 1 / 12000, 1 / 30000] ∧
    Coefficient.DJ.read (afterCalls exBoot [.diffusion exLib (exArgs 4 true), .jump exLib (exArgs 2 true)]) = none := by
  have hbad : (FitCall.run (.diffusion exLib (exArgs 4 true)) exBoot).2.toOption = none := by decide +kernel
  have hbad' : (FitCall.run (.diffusion exLib (exArgs 4 true)) exBoot).2 ≠ .ok () := fun h => by rw [h] at hbad; cases hbad
  refine ⟨hbad, ?_, ?_⟩
  · rw [show ([.diffusion exLib (exArgs 4 true), .diffusion exLib (exArgs 2 true), .diffusion exLib (exArgs 4 true),
      .conductivity exLib ⟨6, 1, 8⟩ (exArgs 1 true) 300 1000] : List (FitCall ℚ)) = [.diffusion exLib (exArgs 4 true)] ++
        .diffusion exLib (exArgs 2 true) :: [.diffusion exLib (exArgs 4 true), .conductivity exLib ⟨6, 1, 8⟩ (exArgs 1 true) 300 1000] from rfl,
      C112_latest exBoot _ _ (.diffusion exLib (exArgs 2 true)) .D rfl (congrArg Prod.snd exFit.1)]
    · exact exFit.2.2.2
    · intro c hc hk
      rcases List.mem_cons.1 hc with rfl | hc
      · exact hbad'
      · obtain rfl := List.mem_singleton.1 hc
        cases hk
  · rw [C112_none]
    · rfl
    · intro c hc hk
      rcases List.mem_cons.1 hc with rfl | hc
      · cases hk
      · obtain rfl := List.mem_singleton.1 hc
        intro h
        have : (FitCall.run (.jump exLib (exArgs 2 true)) exBoot).2.toOption = none := by decide +kernel
        rw [h] at this
        cases this

/-- A call after one that raised: it succeeds as it would have before. -/
example : (FitCall.run (.diffusion exLib (exArgs 2 true)) (afterCalls exBoot [.diffusion exLib (exArgs 4 true)])).2 = .ok () :=
  (C112_outcome exBoot _ _).2 (congrArg Prod.snd exFit.1)

/-- A new object without a fit. -/
example : ∃ b, msdBootstrap id (exOracle ℚ) (exOpts ℚ) () [1, 2] [exArr ℚ 2, exArr ℚ 1] [2, 1] 1 "XY" = .ok (b, ()) ∧
    distribution b = .error .attributeError := by
  obtain ⟨b, hb⟩ := exRun_ok (x := msdBootstrap id (exOracle ℚ) (exOpts ℚ) () [1, 2] [exArr ℚ 2, exArr ℚ 1] [2, 1] 1 "XY") (by decide +kernel)
  exact ⟨b, hb, (C112_new id (exOracle ℚ) (exOpts ℚ) () () _ _ (.scalar 1) _ _ _ b (.inl hb)).2.1⟩

end Kinisi
