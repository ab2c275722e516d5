import Verif.Model.Parser

/-!
# `kinisi/diffusion.py`: `Bootstrap`, `MSDBootstrap`, `MSTDBootstrap`, `MSCDBootstrap` (construction)

Float values that may be `nan` or `inf` are `Option K`, with `none` for a non-finite value.  Arithmetic is exact.
Random draws, `scipy.stats.normaltest` and `pyblock` are oracles (`Oracle`); `numpy.sqrt` is a parameter.
-/

set_option linter.unusedSectionVars false
set_option linter.unusedVariables false

namespace Kinisi

/-! ## The dimension table -/

/-- The two forms of the values in `DIMENSIONALITY`: `np.s_[i]` and `np.s_[start:stop:step]`. -/
inductive AxisSel
  | idx (i : ℕ)
  | slice (start stop : Option ℕ) (step : ℕ)

/-- The axes that an `AxisSel` takes from the last axis (length 3). -/
def AxisSel.axes : AxisSel → List (Fin 3)
  | .idx i => (List.finRange 3).filter fun a => a.val = i
  | .slice start stop step => (List.finRange 3).filter fun a =>
      start.getD 0 ≤ a.val ∧ a.val < stop.getD 3 ∧ (a.val - start.getD 0) % step = 0

/-- diffusion.py:23-38 `DIMENSIONALITY` (the `bytes` keys repeat the `str` keys and are not distinguished). -/
def dimensionality : List (String × AxisSel) :=
  [("x", .idx 0), ("y", .idx 1), ("z", .idx 2),
   ("xy", .slice none (some 2) 1), ("xz", .slice none none 2), ("yz", .slice (some 1) none 1),
   ("xyz", .slice none none 1)]

/-- diffusion.py:83 `DIMENSIONALITY[dimension.lower()]`.  Lean's `String.toLower` only changes ASCII letters; no other
character has `x`, `y` or `z` as its lower case. -/
def dimensionSlice (dimension : String) : PyM AxisSel :=
  match dimensionality.lookup dimension.toLower with
  | some s => .ok s
  | none => .error .keyError

/-- diffusion.py:85 `len(dimension.lower())`. -/
def dimensionDims (dimension : String) : ℕ := dimension.toLower.length

variable {K : Type} [Field K] [LinearOrder K] [IsStrictOrderedRing K] [FloorRing K]

/-! ## Library routines -/

/-- Float division: non-finite when dividing by zero. -/
def npDiv (x y : Option K) : Option K :=
  x.bind fun x => y.bind fun y => if y = 0 then none else some (x / y)

/-- `np.sqrt`; nan for negative and for nan. -/
def npSqrt (sq : K → K) (x : Option K) : Option K := x.bind fun x => if x < 0 then none else some (sq x)

/-- Library routines that the model does not look into.  `G` is the state of the random generator.
* `draws g m n`: the `n` indices below `m + 1` that `sklearn.utils.resample` draws (with replacement) from `m + 1` values;
* `dirichlet g k a`: one row of weights of `RandomState.dirichlet(np.ones(k) * a)`;
* `category g m`: the position of the one in a row of `RandomState.multinomial(n=1, …)` over `m + 1` categories;
* `normaltest`: the p-value of `scipy.stats.normaltest` (`none` for nan), or an exception (too few values);
* `reblock`: mean and squared standard error of the optimal block of `pyblock` (diffusion.py:583-591). -/
structure Oracle (K G : Type) where
  draws : G → (m : ℕ) → (n : ℕ) → (Fin n → Fin (m + 1)) × G
  dirichlet : G → (k : ℕ) → K → (Fin k → K) × G
  category : G → (m : ℕ) → Fin (m + 1) × G
  normaltest : List K → PyM (Option K)
  reblock : List K → PyM (K × K)

variable {G : Type}

/-! ## Resampling -/

/-- One `np.mean(resample(array.flatten(), n_samples=int(n_samples)))` of diffusion.py:797-800.  `resample` raises for an
empty array and for less than one sample. -/
def resampleMean (o : Oracle K G) (g : G) (l : List K) (nSamples : K) : PyM (K × G) :=
  match l with
  | [] => .error .valueError
  | x :: xs =>
    if (pyInt nSamples) < 1 then .error .valueError
    else
      let d := o.draws g xs.length (pyInt nSamples).toNat
      .ok ((List.ofFn fun j => (x :: xs)[d.1 j]).sum / ((pyInt nSamples).toNat : K), d.2)

/-- diffusion.py:783-801 `_bootstrap`. -/
def bootstrapMeans (o : Oracle K G) (l : List K) (nSamples : K) : ℕ → G → PyM (List K × G)
  | 0, g => .ok ([], g)
  | n + 1, g =>
    match resampleMean o g l nSamples with
    | .error e => .error e
    | .ok (m, g1) =>
      match bootstrapMeans o l nSamples n g1 with
      | .error e => .error e
      | .ok (ms, g2) => .ok (m :: ms, g2)

omit [IsStrictOrderedRing K] in
theorem bootstrapMeans_length (o : Oracle K G) (l : List K) (nSamples : K) :
    ∀ (n : ℕ) (g : G) {r}, bootstrapMeans o l nSamples n g = .ok r → r.1.length = n := by
  intro n
  induction n with
  | zero => intro g r h; obtain rfl := Except.ok.inj h; rfl
  | succ n ih =>
    intro g r h
    simp only [bootstrapMeans] at h
    split at h
    · cases h
    split at h
    · cases h
    rename_i ms g2 hb
    obtain rfl := Except.ok.inj h
    simp [ih _ hb]

/-- One row of weights, diffusion.py:828-834: Dirichlet for a positive concentration, otherwise one random category. -/
def bayesRow (o : Oracle K G) (g : G) (m : ℕ) (alphak : K) : (Fin (m + 1) → K) × G :=
  if 0 < alphak then o.dirichlet g (m + 1) alphak
  else
    let c := o.category g m
    (fun i => if i = c.1 then 1 else 0, c.2)

/-- diffusion.py:804-835 `_bayesian_bootstrap` (not called by the package, see the comment in line 278).  A single value
makes the division by `k - 1` a ZeroDivisionError; an empty array makes the concentration negative and `multinomial`
over no category raise. -/
def bayesianMeans (o : Oracle K G) (l : List K) (nSamples : K) : ℕ → G → PyM (List K × G)
  | 0, g => .ok ([], g)
  | n + 1, g =>
    match l with
    | [] => .error .valueError
    | x :: xs =>
      if xs.length = 0 then .error .zeroDivisionError
      else
        let w := bayesRow o g xs.length ((nSamples - 1) / (xs.length : K))
        match bayesianMeans o (x :: xs) nSamples n w.2 with
        | .error e => .error e
        | .ok (ms, g2) => .ok ((List.ofFn fun i => w.1 i * (x :: xs)[i]).sum :: ms, g2)

/-- `p_value < alpha`: false for nan. -/
def pBelow (p : Option K) (alpha : K) : Bool :=
  match p with
  | some p => decide (p < alpha)
  | none => false

/-- The `while` loop of diffusion.py:283-286 with the current values, p-value and generator state. -/
def untilNormalLoop (o : Oracle K G) (l : List K) (nSamples alpha : K) (maxR : ℕ) (vals : List K) (p : Option K) (g : G) :
    PyM (List K × Option K × G) :=
  if h : pBelow p alpha = true ∧ vals.length < maxR then
    match hb : bootstrapMeans o l nSamples 100 g with
    | .error e => .error e
    | .ok (more, g1) =>
      match o.normaltest (vals ++ more) with
      | .error e => .error e
      | .ok p1 => untilNormalLoop o l nSamples alpha maxR (vals ++ more) p1 g1
  else .ok (vals, p, g)
termination_by maxR - vals.length
decreasing_by
  have := bootstrapMeans_length o l nSamples 100 g hb
  simp only at this
  simp only [List.length_append, this]
  omega

/-- diffusion.py:258-289 `sample_until_normal`: the values, whether the warning was issued, and the generator state. -/
def sampleUntilNormal (o : Oracle K G) (l : List K) (nSamples : K) (nR maxR : ℕ) (alpha : K) (g : G) :
    PyM (List K × Bool × G) :=
  match bootstrapMeans o l nSamples nR g with
  | .error e => .error e
  | .ok (vals, g1) =>
    match o.normaltest vals with
    | .error e => .error e
    | .ok p =>
      match untilNormalLoop o l nSamples alpha maxR vals p g1 with
      | .error e => .error e
      | .ok (vals, _, g2) => .ok (vals, decide (maxR ≤ vals.length), g2)

/-! ## Squared displacements -/

/-- diffusion.py:572-574 (also 657-659, 752-754) `d_squared.flatten()`: squared length along the selected axes, atoms outermost. -/
def dSquared (axes : List (Fin 3)) (a : Arr3 K) : List K :=
  (List.range a.n0).flatMap fun i => (List.range a.n1).map fun k => (axes.map fun x => a.get i k x ^ 2).sum

/-- diffusion.py:660 `coll_motion`: squared length of the displacement summed over atoms, one value per observation. -/
def collMotion (axes : List (Fin 3)) (a : Arr3 K) : List K :=
  (List.range a.n1).map fun k => (axes.map fun x => ((List.range a.n0).map fun i => a.get i k x).sum ^ 2).sum

/-- The charge argument of `MSCDBootstrap`. -/
inductive Charge (K : Type)
  | scalar (q : K)
  | array (q : List K)

/-- diffusion.py:742-745: a scalar becomes an array with one entry per atom of the first displacement array. -/
def Charge.expand (n : ℕ) : Charge K → List K
  | .scalar q => List.replicate n q
  | .array q => q

/-- `np.sum((ionic_charge * disp.T).T, axis=0)` for one observation and axis, with numpy broadcasting of the charge
array (length `m`) against the atoms (`n0`): equal lengths, or one of them is 1. -/
def chargeSum (q : List K) (a : Arr3 K) (k : ℕ) (x : Fin 3) : PyM K :=
  if q.length = a.n0 then .ok ((List.range a.n0).map fun i => q.getD i 0 * a.get i k x).sum
  else if q.length = 1 then .ok ((List.range a.n0).map fun i => q.getD 0 0 * a.get i k x).sum
  else if a.n0 = 1 then .ok (q.map fun c => c * a.get 0 k x).sum
  else .error .valueError

/-- diffusion.py:755 `sq_chg_motion`.  All three axes are used, whatever the dimension.  A mismatch of the shapes is
detected before any observation is looked at. -/
def chgMotion (q : List K) (a : Arr3 K) : PyM (List K) :=
  if q.length = a.n0 ∨ q.length = 1 ∨ a.n0 = 1 then
    (List.range a.n1).mapM fun k => do
      let v ← (List.finRange 3).mapM fun x => chargeSum q a k x
      pure (v.map fun y => y ^ 2).sum
  else .error .valueError

/-- diffusion.py:291-303 `ngp_calculation`. -/
def ngpCalculation (d : List K) : Option K :=
  (npDiv ((npMean (d.map fun x => x * x)).map fun m => m * 3) ((npMean d).map fun m => m ^ 2 * 5)).map fun r => r - 1

/-! ## The objects -/

/-- Attributes of `Bootstrap` (diffusion.py:60-87), and the attributes `_popt`, `_model_v`, `_npd_covariance_matrix` that
`generate_covariance_matrix` adds (419-424; `none` until then).  A `Distribution` is its list of samples. -/
structure Boot (K : Type) where
  displacements : List (Arr3 K)
  deltaT : List K
  maxObs : ℕ
  distributions : List (List K) := []
  dt : List K := []
  n : List K := []
  s : List (Option K) := []
  v : List (Option K) := []
  nBoot : List (Option K) := []
  sBoot : List (Option K) := []
  vBoot : List (Option K) := []
  nO : List K
  ngp : List (Option K) := []
  subSampleDt : ℤ
  dimension : String
  euclid : List (List K) := []
  diffusionCoefficient : Option (List K) := none
  jumpDiffusionCoefficient : Option (List K) := none
  sigma : Option (List K) := none
  intercept : Option (List K) := none
  gradient : Option (List K) := none
  flatchain : Option (List (List K)) := none
  covariance : Option (List (List (Option K))) := none
  axes : List (Fin 3)
  startDt : Option K := none
  dims : ℕ
  model : Option Bool := none
  condMax : Option K := none
  popt : Option K := none
  modelV : Option (List (Option K)) := none
  npdCovariance : Option (List (List (Option K))) := none

/-- diffusion.py:54-87 `Bootstrap.__init__`. -/
def bootInit (deltaT : List K) (disp : List (Arr3 K)) (nO : List K) (sub : ℤ) (dimension : String) : PyM (Boot K) := do
  let ds ← pyStride sub disp
  let dts ← pyStride sub deltaT
  match ds with
  | [] => .error .indexError
  | d0 :: _ =>
    let sel ← dimensionSlice dimension
    .ok { displacements := ds, deltaT := dts, maxObs := d0.n1, nO := nO, subSampleDt := sub, dimension := dimension,
          axes := sel.axes, dims := dimensionDims dimension }

/-- Keyword arguments of the three constructors. -/
structure BootOpts (K : Type) where
  bootstrap : Bool := false
  block : Bool := false
  nResamples : ℕ := 1000
  maxResamples : ℕ := 10000
  alpha : K

/-- Python list or 1-d array indexing with a non-negative index. -/
def pyGet {α : Type} (l : List α) (i : ℕ) : PyM α :=
  match l[i]? with
  | some x => .ok x
  | none => .error .indexError

/-- What differs between the three classes: the sampled quantity and the number of independent samples as a function of
`n_o[i]` and the number of atoms. -/
structure Quantity (K : Type) where
  sample : Arr3 K → PyM (List K)
  eff : K → ℕ → Option K

/-- diffusion.py:577-582 (also 664-670, 759-765): the `if bootstrap` block. -/
def bootstrapBlock (sq : K → K) (o : Oracle K G) (opt : BootOpts K) (Q : Quantity K) (nO : List K) (i : ℕ) (a : Arr3 K)
    (l : List K) (b : Boot K) (g : G) : PyM (Boot K × G) :=
  if opt.bootstrap then do
    let no ← pyGet nO i
    match Q.eff no a.n0 with
    | none => .error .external
    | some eff =>
      let (vals, _, g1) ← sampleUntilNormal o l eff opt.nResamples opt.maxResamples opt.alpha g
      .ok ({ b with distributions := b.distributions ++ [vals]
                    nBoot := b.nBoot ++ [npMean vals]
                    vBoot := b.vBoot ++ [npVar1 vals]
                    sBoot := b.sBoot ++ [npSqrt sq (npVar1 vals)] }, g1)
  else .ok (b, g)

/-- diffusion.py:583-599 (also 671-687, 766-782): the `if block … else …` block.  The standard deviation is the root of
`self._v[i]`, with `i` the loop index. -/
def varianceBlock (sq : K → K) (o : Oracle K G) (opt : BootOpts K) (Q : Quantity K) (nO : List K) (i : ℕ) (a : Arr3 K)
    (l : List K) (b : Boot K) : PyM (Boot K) :=
  if opt.block then do
    let (mean, var) ← o.reblock l
    let v := b.v ++ [some var]
    let vi ← pyGet v i
    .ok { b with n := b.n ++ [mean], v := v, s := b.s ++ [npSqrt sq vi] }
  else
    match npMean l with
    | none => .error .external
    | some mean => do
      let no ← pyGet nO i
      let v := b.v ++ [npDiv (npVar1 l) (Q.eff no a.n0)]
      let vi ← pyGet v i
      .ok { b with n := b.n ++ [mean], v := v, s := b.s ++ [npSqrt sq vi] }

/-- The body of the `for` loop (diffusion.py:571-601, 656-687, 751-779) for the interval `i` with displacement array `a`.
The values of `npMean l` and of `Distribution` are never empty here because intervals with at most one value are skipped. -/
def observe (sq : K → K) (o : Oracle K G) (opt : BootOpts K) (Q : Quantity K) (nO : List K) (bg : Boot K × G) (i : ℕ) :
    PyM (Boot K × G) := do
  let a ← pyGet bg.1.displacements i
  let d := dSquared bg.1.axes a
  let l ← Q.sample a
  if l.length ≤ 1 then .ok bg
  else
    let b1 := { bg.1 with euclid := bg.1.euclid ++ [d.map sq] }
    let (b2, g2) ← bootstrapBlock sq o opt Q nO i a l b1 bg.2
    let b3 ← varianceBlock sq o opt Q nO i a l b2
    let t ← pyGet b3.deltaT i
    .ok ({ b3 with ngp := b3.ngp ++ [ngpCalculation d], dt := b3.dt ++ [t] }, g2)

/-- The `for` loop over `range(count)` and the final truncation `self._n_o = self._n_o[:self._n.size]`. -/
def observeAll (sq : K → K) (o : Oracle K G) (opt : BootOpts K) (Q : Quantity K) (nO : List K) (count : ℕ) (b : Boot K)
    (g : G) : PyM (Boot K × G) := do
  let (b1, g1) ← (List.range count).foldlM (observe sq o opt Q nO) (b, g)
  .ok ({ b1 with nO := b1.nO.take b1.n.length }, g1)

/-- `MSDBootstrap`: all squared displacements, `n_o[i]` samples. -/
def msdQuantity (axes : List (Fin 3)) : Quantity K := ⟨fun a => .ok (dSquared axes a), fun no _ => some no⟩

/-- `MSTDBootstrap`: collective motion, `n_o[i] / atoms` samples. -/
def mstdQuantity (axes : List (Fin 3)) : Quantity K :=
  ⟨fun a => .ok (collMotion axes a), fun no n0 => npDiv (some no) (some (n0 : K))⟩

/-- `MSCDBootstrap`: charge motion, `n_o[i] / atoms` samples. -/
def mscdQuantity (q : List K) : Quantity K := ⟨chgMotion q, fun no n0 => npDiv (some no) (some (n0 : K))⟩

/-- diffusion.py:552-602 `MSDBootstrap.__init__`. -/
def msdBootstrap (sq : K → K) (o : Oracle K G) (opt : BootOpts K) (g : G) (deltaT : List K) (disp : List (Arr3 K))
    (nO : List K) (sub : ℤ) (dimension : String) : PyM (Boot K × G) := do
  let b ← bootInit deltaT disp nO sub dimension
  observeAll sq o opt (msdQuantity b.axes) nO b.displacements.length b g

/-- diffusion.py:636-688 `MSTDBootstrap.__init__`. -/
def mstdBootstrap (sq : K → K) (o : Oracle K G) (opt : BootOpts K) (g : G) (deltaT : List K) (disp : List (Arr3 K))
    (nO : List K) (sub : ℤ) (dimension : String) : PyM (Boot K × G) := do
  let b ← bootInit deltaT disp nO sub dimension
  observeAll sq o opt (mstdQuantity b.axes) nO (b.displacements.length / 2) b g

/-- diffusion.py:723-780 `MSCDBootstrap.__init__`. -/
def mscdBootstrap (sq : K → K) (o : Oracle K G) (opt : BootOpts K) (g : G) (deltaT : List K) (disp : List (Arr3 K))
    (charge : Charge K) (nO : List K) (sub : ℤ) (dimension : String) : PyM (Boot K × G) := do
  let b ← bootInit deltaT disp nO sub dimension
  let q := charge.expand ((b.displacements.map Arr3.n0).headD 0)
  observeAll sq o opt (mscdQuantity q) nO (b.displacements.length / 2) b g

/-- Strictly larger in numpy's `argmax` order: nan is larger than every number, equal values are not larger. -/
def argmaxLess : Option K → Option K → Bool
  | some x, some y => decide (x < y)
  | some _, none => true
  | none, _ => false

/-- `np.argmax` of a non-empty list given as head and tail: index of the first maximum (of the first nan, if any). -/
def argmaxFrom (best : Option K) (bi i : ℕ) : List (Option K) → ℕ
  | [] => bi
  | x :: xs => if argmaxLess best x then argmaxFrom x i (i + 1) xs else argmaxFrom best bi (i + 1) xs

/-- `array.argmax()`; ValueError for an empty array. -/
def npArgmax : List (Option K) → PyM ℕ
  | [] => .error .valueError
  | x :: xs => .ok (argmaxFrom x 0 1 xs)

/-- analyzer.py:329-334 `ngp_max`. -/
def ngpMax (b : Boot K) : PyM K := do
  let i ← npArgmax b.ngp
  pyGet b.dt i

end Kinisi
