import Verif.Model.Covariance

/-!
# `kinisi/diffusion.py`: `bootstrap_GLS`, `diffusion`, `jump_diffusion`, `conductivity`, `posterior_predictive`;
`kinisi/analyzer.py`: `distribution`, and the `flatchain` properties of the analyzers

A method that changes the object returns the new object together with the outcome, so that the state after an exception is
visible.  scipy, statsmodels, emcee's proposals and the random numbers are oracles (`GlsLib`).
-/

set_option linter.unusedSectionVars false
set_option linter.unusedVariables false

namespace Kinisi
variable {K : Type} [Field K] [LinearOrder K] [IsStrictOrderedRing K] [FloorRing K]

/-- Library routines and random numbers of one fit.
* `curveFit n dt v`: the coefficient `a` fitted by `scipy.optimize.curve_fit` to the variances;
* `eig`: `numpy.linalg.eig`; `covNearest`: `statsmodels.stats.correlation_tools.cov_nearest`;
* `slogdet`: the logarithm of the determinant plus the constant `log(2π)·size` (lines 350-351); an exception stands for a non-finite value;
* `pinvh`: `scipy.linalg.pinvh`; `linregress`: the slope of `scipy.stats.linregress`, an exception also standing for nan;
* `minimize f x0`: `scipy.optimize.minimize(...).x` for the log-likelihood `f` (`none` is minus infinity);
* `randn w k`: the entry of `numpy.random.randn(n_walkers, ndim)`;
* `emceeCheck nw ndim pos`: the checks of emcee on number of walkers and initial state; `propose s w`, `threshold s w`: the proposal for walker `w` in step `s` and
  the value that the difference of log-likelihoods must exceed for acceptance;
* `dist`: `uravu.distribution.Distribution(samples)`; it may raise (e.g. without samples). -/
structure GlsLib (K : Type) where
  curveFit : List K → List K → List (Option K) → PyM K
  eig : (m : ℕ) → Matrix (Fin (m + 1)) (Fin (m + 1)) K → PyM ((Fin (m + 1) → K) × Matrix (Fin (m + 1)) (Fin (m + 1)) K)
  covNearest : (m : ℕ) → Matrix (Fin m) (Fin m) K → PyM (Matrix (Fin m) (Fin m) K)
  slogdet : (m : ℕ) → Matrix (Fin m) (Fin m) K → PyM K
  pinvh : (m : ℕ) → Matrix (Fin m) (Fin m) K → PyM (Matrix (Fin m) (Fin m) K)
  linregress : List K → List K → PyM K
  minimize : (List K → Option K) → List K → PyM (List K)
  randn : ℕ → ℕ → K
  emceeCheck : ℕ → ℕ → List (List K) → PyM Unit
  propose : ℕ → ℕ → List K
  threshold : ℕ → ℕ → K
  dist : List K → PyM Unit

/-- Arguments of `bootstrap_GLS` (diffusion.py:305-315). -/
structure GlsArgs (K : Type) where
  startDt : K
  condMax : K
  model : Bool := false
  fitIntercept : Bool := true
  nSamples : ℕ := 1000
  nWalkers : ℕ := 32
  nBurn : ℕ := 500
  thin : ℕ := 10

/-- `np.argwhere(self._dt >= start)[0][0]` (diffusion.py:346, 510). -/
def diffRegime (dt : List K) (start : K) : PyM ℕ :=
  match dt.findIdx? fun x => decide (start ≤ x) with
  | some i => .ok i
  | none => .error .indexError

/-- A matrix as list of rows (for the attribute). -/
def matrixRows {m : ℕ} (A : Matrix (Fin m) (Fin m) K) : List (List (Option K)) :=
  (List.finRange m).map fun i => (List.finRange m).map fun j => some (A i j)

/-- diffusion.py:425 `cov_nearest(minimum_eigenvalue_method(self._covariance_matrix, self._cond_max))`. -/
def condition (L : GlsLib K) (m : ℕ) (M : List (List (Option K))) (condMax : K) : PyM (Matrix (Fin m) (Fin m) K) :=
  match m with
  | 0 => .error .indexError
  | m + 1 =>
    match finiteMatrix (m + 1) M with
    | none => .error .linAlgError
    | some A =>
      match minimumEigenvalueMethod (L.eig m) A condMax with
      | .error e => .error e
      | .ok B => L.covNearest (m + 1) B

/-- diffusion.py:419-420: the fitted coefficient and the variances of the random walk model. -/
def modelBranch (L : GlsLib K) (b : Boot K) (r : ℕ) : Boot K × PyM (List (Option K)) :=
  match L.curveFit (b.nO.drop r) (b.dt.drop r) (b.v.drop r) with
  | .error e => (b, .error e)
  | .ok a =>
    match modelVariance (b.nO.drop r) (b.dt.drop r) a with
    | .error e => ({ b with popt := some a }, .error e)
    | .ok v => ({ b with popt := some a, modelV := some v }, .ok v)

/-- diffusion.py:418-422: which variances are used. -/
def chooseVariances (L : GlsLib K) (model : Bool) (b : Boot K) (r : ℕ) : Boot K × PyM (List (Option K)) :=
  if model then modelBranch L b r else ({ b with modelV := some (b.v.drop r) }, .ok (b.v.drop r))

/-- diffusion.py:397-425 `generate_covariance_matrix`, with the size `m` of the variance array. -/
def generateCovariance (L : GlsLib K) (a : GlsArgs K) (b : Boot K) (r : ℕ) :
    Boot K × PyM ((m : ℕ) × Matrix (Fin m) (Fin m) K) :=
  match chooseVariances L a.model b r with
  | (b1, .error e) => (b1, .error e)
  | (b1, .ok v) =>
    match populateCovariance v (b1.nO.drop r) with
    | .error e => (b1, .error e)
    | .ok M =>
      let b2 := { b1 with covariance := some M, npdCovariance := some M }
      match condition L v.length M a.condMax with
      | .error e => (b2, .error e)
      | .ok A => (b2, .ok ⟨v.length, A⟩)

/-- diffusion.py:857-867 `_straight_line` at one abscissa; the intercept defaults to 0. -/
def straightLine (t : K) (θ : List K) : K := θ.getD 0 0 * t + θ.getD 1 0

/-- diffusion.py:354-365 `log_likelihood`; `none` is minus infinity. -/
def logLikelihood {m : ℕ} (logdet : K) (inv : Matrix (Fin m) (Fin m) K) (t y : Fin m → K) (θ : List K) : Option K :=
  if θ.getD 0 0 < 0 then none
  else
    let diff : Fin m → K := fun i => straightLine (t i) θ - y i
    some (-(1 / 2) * (logdet + dotProduct diff (inv.mulVec diff)))

/-- Acceptance of a proposal in emcee: `lnpdiff > log(rand)`; a proposal with log-probability minus infinity is never accepted, and always
replaces a state with minus infinity otherwise. -/
def metropolis (ll : List K → Option K) (u : K) (old new : List K) : List K :=
  match ll new, ll old with
  | none, _ => old
  | some _, none => new
  | some l1, some l0 => if u < l1 - l0 then new else old

/-- One step of the ensemble. -/
def ensembleStep (L : GlsLib K) (ll : List K → Option K) (s : ℕ) (walkers : List (List K)) : List (List K) :=
  walkers.zipIdx.map fun p => metropolis ll (L.threshold s p.2) p.1 (L.propose s p.2)

/-- The stored chain: the ensembles after the steps `s, s + 1, …` (`n` of them). -/
def runChain (L : GlsLib K) (ll : List K → Option K) : ℕ → ℕ → List (List K) → List (List (List K))
  | 0, _, _ => []
  | n + 1, s, ws =>
    let ws' := ensembleStep L ll s ws
    ws' :: runChain L ll n (s + 1) ws'

/-- emcee `get_chain(flat=True, thin=thin, discard=discard)`: `chain[discard + thin - 1 : iteration : thin]`, flattened over steps and walkers. -/
def getChain (discard thin : ℕ) (chain : List (List (List K))) : PyM (List (List K)) :=
  if chain.length = 0 then .error .attributeError
  else if thin = 0 then .error .valueError
  else .ok (stride thin (chain.drop (discard + thin - 1))).flatten

/-- The starting point of the maximisation: diffusion.py:367-371, 380-383. -/
def startPoint (fitIntercept : Bool) (slope : K) : List K :=
  let slope := if slope < 0 then 1 / 10 ^ 20 else slope
  if fitIntercept then [slope, 1 / 10 ^ 20] else [slope]

/-- diffusion.py:384 `pos = max_likelihood + max_likelihood * 1e-3 * randn`. -/
def initialWalkers (L : GlsLib K) (nWalkers : ℕ) (ml : List K) : List (List K) :=
  (List.range nWalkers).map fun w => ml.zipIdx.map fun p => p.1 + p.1 * (1 / 1000) * L.randn w p.2

/-- diffusion.py:350-391: from the covariance matrix to the flat chain.  Arrays of different lengths cannot be subtracted (ValueError). -/
def sampleChain (L : GlsLib K) (a : GlsArgs K) (t y : List K) (m : ℕ) (cov : Matrix (Fin m) (Fin m) K) : PyM (List (List K)) := do
  let logdet ← L.slogdet m cov
  let inv ← L.pinvh m cov
  if t.length ≠ m ∨ y.length ≠ m then .error .valueError
  else
    let ll := logLikelihood logdet inv (fun i => t.getD i 0) (fun i => y.getD i 0)
    let slope ← L.linregress t y
    let ml ← L.minimize ll (startPoint a.fitIntercept slope)
    let pos := initialWalkers L a.nWalkers ml
    let _ ← L.emceeCheck a.nWalkers ml.length pos
    getChain a.nBurn a.thin (runChain L ll (a.nSamples + a.nBurn) 0 pos)

/-- One column of the flat chain as a `Distribution`; IndexError if the chain has no such column. -/
def chainColumn (L : GlsLib K) (k : ℕ) (chain : List (List K)) : PyM (List K) := do
  let c ← chain.mapM fun row => pyGet row k
  let _ ← L.dist c
  .ok c

/-- diffusion.py:391-395: storing the results. -/
def storeChain (L : GlsLib K) (fitIntercept : Bool) (chain : List (List K)) (b : Boot K) : Boot K × PyM Unit :=
  let b1 := { b with flatchain := some chain }
  match chainColumn L 0 chain with
  | .error e => (b1, .error e)
  | .ok g =>
    let b2 := { b1 with gradient := some g, intercept := none }
    if fitIntercept then
      match chainColumn L 1 chain with
      | .error e => (b2, .error e)
      | .ok c => ({ b2 with intercept := some c }, .ok ())
    else (b2, .ok ())

/-- diffusion.py:348-395: `bootstrap_GLS` once the start index `r` is known. -/
def fitFrom (L : GlsLib K) (a : GlsArgs K) (r : ℕ) (b : Boot K) : Boot K × PyM Unit :=
  match generateCovariance L a b r with
  | (b2, .error e) => (b2, .error e)
  | (b2, .ok ⟨m, cov⟩) =>
    let b3 := { b2 with covariance := some (matrixRows cov) }
    match sampleChain L a (b3.dt.drop r) (b3.n.drop r) m cov with
    | .error e => (b3, .error e)
    | .ok chain => storeChain L a.fitIntercept chain b3

/-- diffusion.py:343-345: the attributes set first. -/
def markFit (a : GlsArgs K) (b : Boot K) : Boot K :=
  { b with startDt := some a.startDt, model := some a.model, condMax := some a.condMax }

/-- diffusion.py:305-395 `bootstrap_GLS`. -/
def bootstrapGLS (L : GlsLib K) (a : GlsArgs K) (b : Boot K) : Boot K × PyM Unit :=
  match diffRegime (markFit a b).dt a.startDt with
  | .error e => (markFit a b, .error e)
  | .ok r => fitFrom L a r (markFit a b)

/-- The samples of `self.gradient`; AttributeError for None. -/
def samplesOf (d : Option (List K)) : PyM (List K) :=
  match d with
  | some s => .ok s
  | none => .error .attributeError

/-- The samples divided by `c`, as a `Distribution`.  Division by zero, possible only for displacement arrays without atoms, gives
non-finite samples; the model raises. -/
def scaled (L : GlsLib K) (c : K) (g : Option (List K)) : PyM (List K) :=
  match samplesOf g with
  | .error e => .error e
  | .ok s =>
    if c = 0 then .error .external
    else
      match L.dist (s.map fun x => x / c) with
      | .error e => .error e
      | .ok _ => .ok (s.map fun x => x / c)

/-- diffusion.py:427-436 `diffusion`. -/
def diffusion (L : GlsLib K) (a : GlsArgs K) (b : Boot K) : Boot K × PyM Unit :=
  match bootstrapGLS L a b with
  | (b1, .error e) => (b1, .error e)
  | (b1, .ok _) =>
    match scaled L (20000 * (b1.dims : K)) b1.gradient with
    | .error e => (b1, .error e)
    | .ok d => ({ b1 with diffusionCoefficient := some d }, .ok ())

/-- diffusion.py:447-457 `jump_diffusion`. -/
def jumpDiffusion (L : GlsLib K) (a : GlsArgs K) (b : Boot K) : Boot K × PyM Unit :=
  match bootstrapGLS L a b with
  | (b1, .error e) => (b1, .error e)
  | (b1, .ok _) =>
    match b1.displacements with
    | [] => (b1, .error .indexError)
    | d0 :: _ =>
      match scaled L (20000 * (b1.dims : K) * (d0.n0 : K)) b1.gradient with
      | .error e => (b1, .error e)
      | .ok d => ({ b1 with jumpDiffusionCoefficient := some d }, .ok ())

/-- Physical constants `scipy.constants.N_A`, `e`, `R`. -/
structure Consts (K : Type) where
  nA : K
  e : K
  R : K

/-- diffusion.py:480 `conversion`; dividing by zero is a ZeroDivisionError (Python floats). -/
def conversion (C : Consts K) (temperature volume : K) : PyM K :=
  let v := volume * (1 / 10 ^ 24)
  if v * C.nA = 0 then .error .zeroDivisionError
  else if C.R * temperature = 0 then .error .zeroDivisionError
  else .ok (1000 / (v * C.nA) * (C.nA * C.e) ^ 2 / (C.R * temperature))

/-- diffusion.py:468-482 `conductivity`.  The number of dimensions is never zero for an object from a constructor; otherwise the samples
would not be finite, and the model raises. -/
def conductivity (L : GlsLib K) (C : Consts K) (a : GlsArgs K) (temperature volume : K) (b : Boot K) : Boot K × PyM Unit :=
  match bootstrapGLS L a b with
  | (b1, .error e) => (b1, .error e)
  | (b1, .ok _) =>
    match samplesOf b1.gradient with
    | .error e => (b1, .error e)
    | .ok g =>
      match conversion C temperature volume with
      | .error e => (b1, .error e)
      | .ok c =>
        if b1.dims = 0 then (b1, .error .external)
        else
          match L.dist ((g.map fun x => x / (20000 * (b1.dims : K))).map fun x => x * c) with
          | .error e => (b1, .error e)
          | .ok _ => ({ b1 with sigma := some ((g.map fun x => x / (20000 * (b1.dims : K))).map fun x => x * c) }, .ok ())

/-! ## Use of the results -/

/-- `self._dt >= self._start_dt` with `None` is a TypeError. -/
def startOf (b : Boot K) : PyM K :=
  match b.startDt with
  | some s => .ok s
  | none => .error .typeError

/-- `numpy.random.randint(0, size, …)` raises for an empty range. -/
def randintCheck (size : ℕ) : PyM Unit := if size = 0 then .error .valueError else .ok ()

/-- diffusion.py:517-519: one pass of the loop.  `rvs mean cov k` are the `k` rows that `multivariate_normal(...).rvs(k)` draws.  scipy drops an axis of
length one, so that for a single interval an array of shape `(k,)` is assigned to shape `(k, 1)`, a ValueError unless `k = 1`. -/
def predictiveRows (rvs : List K → List (List (Option K)) → ℕ → ℕ → List (List K)) (b : Boot K) (t : List K) (nPred i n : ℕ) :
    PyM (List (List K)) := do
  let g ← samplesOf b.gradient
  let gn ← pyGet g n
  let c ← samplesOf b.intercept
  let cn ← pyGet c n
  let mu := t.map fun x => gn * x + cn
  match b.covariance with
  | none => .error .external
  | some cov =>
    if cov.length ≠ mu.length then .error .valueError
    else if mu.length = 1 ∧ nPred ≠ 1 then .error .valueError
    else .ok (rvs mu cov nPred i)

/-- The number of posterior samples, diffusion.py:507-508. -/
def posteriorCount (nPost : Option ℕ) (b : Boot K) : PyM ℕ :=
  match nPost with
  | some k => .ok k
  | none => do
    let g ← samplesOf b.gradient
    .ok g.length

/-- diffusion.py:492-521 `posterior_predictive`: the rows of the returned array.  `draw i` are the random indices below the number of samples. -/
def posteriorPredictive (rvs : List K → List (List (Option K)) → ℕ → ℕ → List (List K)) (draw : ℕ → ℕ → ℕ) (b : Boot K)
    (nPost : Option ℕ) (nPred : ℕ) : PyM (List (List K)) := do
  let k ← posteriorCount nPost b
  let s ← startOf b
  let r ← diffRegime b.dt s
  let g ← samplesOf b.gradient
  let _ ← randintCheck g.length
  let rows ← (List.range k).mapM fun i => predictiveRows rvs b (b.dt.drop r) nPred i (draw g.length i)
  .ok rows.flatten

/-- analyzer.py:306-312 `distribution`: one row per interval.  The samples of gradient and intercept come from one chain and have the same number; otherwise numpy
cannot broadcast them (ValueError). -/
def distribution (b : Boot K) : PyM (List (List K)) := do
  let g ← samplesOf b.gradient
  let c ← samplesOf b.intercept
  if g.length ≠ c.length then .error .valueError
  else .ok (b.dt.map fun t => (g.zip c).map fun p => p.1 * t + p.2)

/-- The `flatchain` properties: `np.array([X.samples, self.intercept.samples]).T` with `X` = D (diffusion_analyzer.py), D_J, sigma. -/
def analyzerFlatchain (X : Boot K → Option (List K)) (b : Boot K) : PyM (List (List K)) := do
  let x ← samplesOf (X b)
  let c ← samplesOf b.intercept
  if x.length ≠ c.length then .error .valueError
  else .ok ((x.zip c).map fun p => [p.1, p.2])

end Kinisi
