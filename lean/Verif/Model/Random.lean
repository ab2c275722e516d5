import Verif.Model.GLS

/-!
# Which random numbers the code uses

`kinisi/diffusion.py` draws from two generators: the global one of numpy (`np.random…`) and the `RandomState` object a caller may pass as `random_state`.
The model follows both through a session of calls:

* the constructors hand `random_state` to sklearn's `resample` (diffusion.py:281, 285, 579, 665, 757, 799), which falls back to the global generator for `None`; the
  objects of type `Distribution` made on the way may also draw from the global generator, without effect on the values stored;
* `bootstrap_GLS` reseeds the global generator with one word of the state of `random_state` (lines 339-340) and then uses the global generator only: the walkers
  (line 384), emcee, which copies the state of the global generator when the sampler is made, and `Distribution`;
* `posterior_predictive` (lines 492-521) has no `random_state` and uses the global generator.

How many numbers each routine draws is left open: the states afterwards are arbitrary functions of the state before and the arguments.
-/

set_option linter.unusedSectionVars false
set_option linter.unusedVariables false

namespace Kinisi
variable {K : Type} [Field K] [LinearOrder K] [IsStrictOrderedRing K] [FloorRing K] {Γ : Type}

/-- Arguments of one of the three constructors (diffusion.py:552-565, 636-649, 723-737) other than `random_state`. -/
structure BuildArgs (K : Type) where
  opt : BootOpts K
  deltaT : List K
  disp : List (Arr3 K)
  nO : List K
  sub : ℤ
  dimension : String

/-- The construction of an `MSDBootstrap`, `MSTDBootstrap` or `MSCDBootstrap`. -/
inductive Build (K : Type) where
  | msd (a : BuildArgs K)
  | mstd (a : BuildArgs K)
  | mscd (a : BuildArgs K) (charge : Charge K)

/-- The constructors, with the generator that `resample` is given. -/
def Build.run (sq : K → K) (o : Oracle K Γ) (g : Γ) : Build K → PyM (Boot K × Γ)
  | .msd a => msdBootstrap sq o a.opt g a.deltaT a.disp a.nO a.sub a.dimension
  | .mstd a => mstdBootstrap sq o a.opt g a.deltaT a.disp a.nO a.sub a.dimension
  | .mscd a q => mscdBootstrap sq o a.opt g a.deltaT a.disp q a.nO a.sub a.dimension

/-- A fit: `bootstrap_GLS`, `diffusion`, `jump_diffusion` or `conductivity` (diffusion.py:305-490). -/
inductive Fit (K : Type) where
  | gls (a : GlsArgs K)
  | diffusion (a : GlsArgs K)
  | jump (a : GlsArgs K)
  | conductivity (C : Consts K) (a : GlsArgs K) (T V : K)

/-- The fit with given library routines and random numbers. -/
def Fit.run (L : GlsLib K) (b : Boot K) : Fit K → Boot K × PyM Unit
  | .gls a => bootstrapGLS L a b
  | .diffusion a => Kinisi.diffusion L a b
  | .jump a => jumpDiffusion L a b
  | .conductivity C a T V => Kinisi.conductivity L C a T V b

/-- A pseudo-random generator with state `Γ` and the routines that draw from it.
* `seed k`: the state after `np.random.seed(k)`; `word γ`: `get_state()[1][1]`, the second word of the key;
* `sq`, `resampler`: as for the constructors; `globAfterBuild`, `objAfterError`: the state of the global generator after a constructor (given the states of the global
  generator and of the one used by `resample`), and of the one used by `resample` after a constructor that raised;
* `lib γ f b`: the library routines and random numbers of the fit `f` of `b` when the global generator is in state `γ` at line 342; `afterFit`: its state after the fit;
* `draw`, `rvs`, `afterPredict`: the same for `posterior_predictive`. -/
structure Rng (K Γ : Type) where
  seed : ℕ → Γ
  word : Γ → ℕ
  sq : K → K
  resampler : Oracle K Γ
  globAfterBuild : Γ → Γ → Build K → Γ
  objAfterError : Γ → Build K → Γ
  lib : Γ → Fit K → Boot K → GlsLib K
  afterFit : Γ → Fit K → Boot K → Γ
  draw : Γ → ℕ → ℕ → ℕ
  rvs : Γ → List K → List (List (Option K)) → ℕ → ℕ → List (List K)
  afterPredict : Γ → Boot K → Option ℕ → ℕ → Γ

/-- What a session holds: the global generator, the caller's `RandomState` object and the analysis object. -/
structure Sess (K Γ : Type) where
  glob : Γ
  obj : Γ
  boot : Option (Boot K)

/-- One action of a session; `own` tells whether `random_state` is the caller's object (otherwise it is `None`).  `other f` stands for any other use the caller makes
of the global generator. -/
inductive Act (K Γ : Type) where
  | build (own : Bool) (c : Build K)
  | fit (own : Bool) (f : Fit K)
  | predict (nPost : Option ℕ) (nPred : ℕ)
  | other (f : Γ → Γ)

/-- What the caller gets to see of an action. -/
inductive Out (K : Type) where
  | built (r : PyM (Boot K))
  | fitted (b : Boot K) (r : PyM Unit)
  | predicted (r : PyM (List (List K)))
  | noObject
  | nothing

/-- A constructor with `random_state` the caller's object or `None`. -/
def buildAct (R : Rng K Γ) (own : Bool) (c : Build K) (s : Sess K Γ) : Sess K Γ × Out K :=
  if own then
    match c.run R.sq R.resampler s.obj with
    | .error e => (⟨R.globAfterBuild s.glob s.obj c, R.objAfterError s.obj c, s.boot⟩, .built (.error e))
    | .ok (b, o) => (⟨R.globAfterBuild s.glob s.obj c, o, some b⟩, .built (.ok b))
  else
    match c.run R.sq R.resampler s.glob with
    | .error e => (⟨R.globAfterBuild s.glob s.glob c, s.obj, s.boot⟩, .built (.error e))
    | .ok (b, _) => (⟨R.globAfterBuild s.glob s.glob c, s.obj, some b⟩, .built (.ok b))

/-- diffusion.py:339-340: the state of the global generator with which the fit goes on. -/
def fitSeed (R : Rng K Γ) (own : Bool) (s : Sess K Γ) : Γ := if own then R.seed (R.word s.obj) else s.glob

/-- A fit of the object of the session. -/
def fitAct (R : Rng K Γ) (own : Bool) (f : Fit K) (s : Sess K Γ) : Sess K Γ × Out K :=
  match s.boot with
  | none => (s, .noObject)
  | some b =>
    let γ := fitSeed R own s
    let r := f.run (R.lib γ f b) b
    (⟨R.afterFit γ f b, s.obj, some r.1⟩, .fitted r.1 r.2)

/-- `posterior_predictive` of the object of the session. -/
def predictAct (R : Rng K Γ) (nPost : Option ℕ) (nPred : ℕ) (s : Sess K Γ) : Sess K Γ × Out K :=
  match s.boot with
  | none => (s, .predicted (.error .attributeError))
  | some b =>
    (⟨R.afterPredict s.glob b nPost nPred, s.obj, s.boot⟩,
      .predicted (posteriorPredictive (R.rvs s.glob) (R.draw s.glob) b nPost nPred))

/-- One action. -/
def sessStep (R : Rng K Γ) (s : Sess K Γ) : Act K Γ → Sess K Γ × Out K
  | .build own c => buildAct R own c s
  | .fit own f => fitAct R own f s
  | .predict p k => predictAct R p k s
  | .other f => ({ s with glob := f s.glob }, .nothing)

/-- What the caller sees in a session, action by action. -/
def sessOut (R : Rng K Γ) : Sess K Γ → List (Act K Γ) → List (Out K)
  | _, [] => []
  | s, a :: as => (sessStep R s a).2 :: sessOut R (sessStep R s a).1 as

/-- The session after a list of actions. -/
def sessEnd (R : Rng K Γ) (s : Sess K Γ) (as : List (Act K Γ)) : Sess K Γ := as.foldl (fun s a => (sessStep R s a).1) s

end Kinisi
