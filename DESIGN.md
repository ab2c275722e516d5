# Design of the kinisi model and proofs

Subject: `bjmorgan/kinisi` at the pinned commit in `/repo` (read as text only, never run here).
The properties are in `properties.jsonl`; `MANIFEST.json` maps each of them to Lean theorems.

## 1. Shape of the model

Every modelled Python function is one Lean `def` whose branches follow the branches of the source; the
comment above it cites file and lines. Exceptions are values: `PyM α = Except PyErr α`, with one constructor per
Python exception class that matters. Nothing is silently totalised: division by zero, singular matrices,
out-of-range indices, missing keys, missing attributes are error branches.

| Python | Lean |
|---|---|
| float / numpy float array entries | an arbitrary ordered field `K` with floor (`Field K`, `LinearOrder K`, `IsStrictOrderedRing K`, `FloorRing K`); `ℚ` for worked examples, `ℝ` where `sqrt/exp/cos/atan2/pow` are needed |
| rounding of the *time* arithmetic (`min_dt/(step_skip*time_step)`, `linspace`, `delta_t`) | every operation is `fl (exact result)` for a rounding function `fl : K → K`; `fl = id` is exact arithmetic, `fl64 : ℚ → ℚ` is round-to-nearest-even with 53 bits (unbounded exponent) |
| rounding in `get_disp` | second model `Model/DispFl` of the same lines with `fl` after every operation (C91); all other theorems use the exact one |
| array `[site, step, axis]` | `Arr3 K`: shape `n0 n1` and entries `ℕ → ℕ → Fin 3 → K` (entries outside the shape are junk; every index is checked in the code that uses it) |
| 1-d arrays and lists | `List` |
| `np.nan` in the non-Gaussian parameter | `Option K` |
| LAPACK `eig`, `cov_nearest`, `pinvh`, `minimize`, `linregress`, `curve_fit`, emcee's proposals, `normaltest`, `resample`, `pyblock`, `Distribution` | parameters (oracles) of the model; theorems quantify over them, any assumption on them is an explicit hypothesis |
| HDF5 file | the list of its datasets, each with the list of its path components (paths are real strings split at `/`); groups are the proper prefixes; members are listed in alphabetical order, as h5py does |
| file system | a map from file names to contents; `save` is a list of primitive assignments, so that every crash point is a prefix of that list; several processes are an interleaving of test and write steps |
| mutable objects (`Bootstrap`, the default `bounds` list) | explicit state: a method returns the state after the call *and* the outcome, so the state after an exception is visible; list identity is an address in a heap |

Simplifications that matter are repeated in section 4.

## 2. Files

* `Verif/Py.lean` – exceptions, slices, numpy indexing, sums, means, `linspace`, float rounding.
* `Verif/Model/*.lean` – the model, function by function.
* `Verif/Spec/*.lean` – what the properties mean, written without reference to the model's helper functions.
* `Verif/Lemmas/*.lean` – helper lemmas.
* `Verif/Props/*.lean` – the property theorems (named after the property, e.g. `C01_…`), each with an `example`
  that instantiates its hypotheses on concrete data.

A property that is false of the code gets a theorem `…_violated` with a concrete witness, and a theorem `…_partial`
for the part that does hold; the manifest status is then `partial`.

## 3. Property by property

M = modelled code, S = specification used in the statement, P = how it is proved. "False" means that the negation is proved
with a concrete witness; the theorems ending in `_partial` then say what does hold.

### Unwrapping and drift (`Model/Disp`, `Spec/Disp`, `Props/Disp`)
* **C01** M `Parser.get_disp` (parser.py:102-129) with 3×3 matrices, explicit inverse, floor. S `cart`, `HalfCell`: true path `u`, stored
  coordinates differ from it by integers. P `x·L·L⁻¹ = x`, uniqueness of the integer part, telescoping sum.
* **C02** S `MinImage`: difference to the raw step is an integer combination of the cell vectors and the fractional components are in
  [-1/2, 1/2). P floor inequality; uniqueness is a second theorem. Cells may change in time.
* **C03** False when the cell changes between frames (`C03_violated_npt`: two cubic cells): the raw step uses two cells, a shifted image
  then moves the atom by the difference of the two cells. Proved if no shifted frame is followed by a different cell.
* **C04, C05** every outcome of `get_disp` by cases.
* **C06** M `correct_drift` (132-148) with negative wrap-around of indices. S `meanOver`, `atomOf`. P finite sums.

### Time intervals (`Model/TimeGrid`, `Spec/Float`, `Props/TimeGrid`)
M parser.py:80-90 and 150-168, `np.linspace`/`np.geomspace` with the assignment of the end points and truncation.
* **C07** exact values for exact arithmetic, and count/ends/order/range for every rounding function of class `Rounding`
  (monotone, exact on small integers, relative error); `rounding_fl64` shows that round-to-nearest-even with 53 bits is one.
* **C08** False (`max_dt` shorter than the trajectory). Exact criterion proved.
* **C09, C73** true in exact arithmetic; false in binary64: 29 steps of 0.005 ps (both computed in the kernel). Under any rounding the list still ends at T
  or ends at T-1 with a repeated interval.
* **C10** the interior points of `geomspace` are arbitrary between the ends, plus the real formula. **C11** by cases, every rounding function.

### Sampling of displacements (`Model/GetDisps`, `Spec/Windows`, `Props/GetDisps`)
M `get_disps` (170-222): both sampling branches, skip rule, memory estimate.
* **C12** S `IsWindows`. P index arithmetic. **C14** False: the loop counter is used as the interval. **C15, C16, C17** lists of results.
* **C13** composition with the constructors. False: the first frame is duplicated, so the first observation of an interval of t frames spans t-1
  frames. All other observations are proved right for the three parsers.

### Constructors (`Model/Parser`, `Spec/Path`, `Props/Parser`)
M the three `__init__`, `get_structure_coords_latt`, dispatch on the selection arguments; Python number kinds (int/float) and sequence kinds (list/tuple).
* **C18** False for ASE (`step_skip` is not multiplied by `sub_sample_traj`). **C19** False for pymatgen (in-place multiplication of an integer array).
* **C71** False (a tuple indexes several axes). **C72** False for ASE as C18; frames are right. **C74, C75** by cases.

### Selection (`Model/Select`, `Spec/Molecule`, `Props/Select`, `Lemmas/Molecule`)
* **C20–C23, C26** M `get_indices`, `_get_framework`, `_get_molecules`. C21, C22, C23 false: AttributeError, IndexError, and 0-based versus 1-based indices.
* **C24, C25** over ℝ with Mathlib's `cos`, `sin` and `Complex.arg` for `arctan2`. S `wmean`, `Compact`, `SameImages`. P the mean angle of points within
  a half circle stays in the same half circle, so the recentred coordinates are consecutive images.

### Observables (`Model/Observables`, `Spec/Observables`, `Props/Observables`, `Props/Ngp`, `Props/Resample`)
M `Bootstrap.__init__`, the loops of `MSDBootstrap`, `MSTDBootstrap`, `MSCDBootstrap` with the `continue`, the loop-index look-ups and the final truncation.
* **C84** (`Props/Bootstrap`, `Lemmas/Bootstrap`) second invariant of the same loop for `distributions`, `n_bootstrap`, `v_bootstrap`, `s_bootstrap`; S `MeanOfDraws`. `C84_flag_*` compares two runs with different options. Also there: C32 for MSTD, MSCD and `block=True`.
* **C85** (`Props/Results`) columns of the stored chain (`mapM_pyGet`) through `distribution`, `analyzerFlatchain`, `predictiveRows`; for every `FitCall`.
* **C86** (`Props/Results`) inversion of the three parsers down to the frame whose volume is stored (`FirstUsed`), then of the five constructors. Violated for differing volumes (concrete pool of two cells; the general statement `C86_first_frame` for one trajectory).
* **C87** (`Props/Units`) C45 with zero residuals; the fit theorem adds an optimiser that returns maxima (`FindsMaximum`, satisfied by `exactOptimum`). Consequence noted while proving: for data through the origin the intercept of every walker starts at exactly 0, so the walkers do not span the parameter space and emcee refuses to start (emcee's check is an oracle here).
* **C88** (`Props/Units`, `Lemmas/Units`) every step of the fit commutes with the change of units; S `Spec/Units` (`SameLib`: what is assumed of the libraries, `SameCurve`, `newUnits`). Equality of outcomes, not only of successful ones.
* **C89** (`Props/Efficiency`, S `Spec/Efficiency`) Gauss–Markov: explicit weights `glsWeights`, covariance of these with any unbiased estimator equals their variance; profile likelihood by completing the square on top of C45. No probability theory is used: the variance of `∑ w y` for covariance `S` is by definition `∑∑ w S w`.
* **C90** (`Props/StartDt`) error analysis of two rounded products (`Rounding fl N`), `diffRegime_ok_iff`; violated in binary64 by `decide +kernel`.
* **C91** (`Props/DispFl`, `Lemmas/DispFl`, model `Model/DispFl`, S `Spec/DispFl`) forward error analysis of `get_disp` operation by operation; `getDispFl_id` ties the rounded model to the exact one. `np.linalg.inv` is an oracle with an error bound `κ`.
* **C92** (`Props/NgpGaussian`, S `GaussianMoments`) moments of the data, not of a distribution: mean squares, fourth and mixed moments over all atoms and observations; on top of C35. The prefactor should be `d / (d + 2)`.
* **C93** (`Props/RandomWalk`, S `UncorrelatedSteps`) linearity of the Bochner integral on top of C70/C78; needs neither independence nor a mean of zero. The example is a walk on a finite probability space whose analysis succeeds by C79.
* **C94, C95** (`Props/Statistics`, `Lemmas/Statistics`, S `RandomWalk`, `NormalMoments`, `blockMsd`, `slidingMsd`) covariance of squares of sums of independent steps: `cov_nested`, `cov_disjoint`, `cov_inter`; on top of C40. `gaussian_walk` builds the walk with normal steps on an infinite product space, so the hypotheses are satisfiable.
* **C96** (`Props/RandomWalkTotal`, S `UncorrelatedAtoms`, `Proportional`) the cross terms of the squared sum vanish in the mean; on top of C80 and C93. The example builds all three analyzers for every outcome of two coins.
* **C97** (`Props/Consistency`, `Lemmas/Consistency`, S `RandomWalk`, `StepMoments`) the reported MSD is a mean of squared sums over overlapping windows; windows further apart than the interval are independent, so the variance falls as one over the number of windows; bias from C93; limit by squeezing, probability by Chebyshev. The example is an infinite sequence of fair coins, analysed for every number of frames.
* **C98** (`Props/Lengths`, S `reportedSquares`, `ngpOf`) list equality, order included, from the entries of the loop invariant `Recorded` and `TrueWindows`; for the three analyzers and the three formats.
* **C99** (`Model/Random`, `Spec/Random`, `Props/Random`) a session is a list of actions on a state with the global generator, the caller's `RandomState` and the object. The generator is any state machine; how many numbers a routine draws is left open. `C99_results_partial` by induction with an invariant on (object, `RandomState`); `C99_session_partial` with the invariant that the global generators agree unless no fit was made yet. **Violations**: `C99_violated_global` (diffusion.py:339-340 reseeds the caller's global generator and never advances the `RandomState`), `C99_violated_predictive`. `Props/Session` (`C99_values`, `C99_built`) ties the actions of the session to the constructors and fits themselves. `C99_last`: the object at the end of a session is the one its last call reported; `C99_end_partial`: it is the same for all states of the global generator (added because an edit of `sessEnd` broke nothing).
* **C100** (`Model/Access`, `Props/Access`) which attributes are assigned, by induction over the history of calls. **Violation**: `C100_violated_n_i` (diffusion.py:222-227 reads `_n_i`, which nothing assigns).
* **C101** (`Spec/Paths`, `Props/Paths`) generic lemma `build_path`/`frames_base` (any trajectory whose unwrapped path after the selection is a given one), with `path_stored` for cells that change; the specification compares with `reportedMsd` in the unit cell, that is with a Cartesian path. `C101_breathing`: what atoms at rest report.
* **C102** (`Spec/Paths`, `Props/Molecules`) C24 (centre) and C26 (layout) give the path of the centres up to whole cells, `frames_base` the curves. Example in `Props/Selected`, where `C79_molecules_partial` shows that the run exists.
* **C103** (`Props/Grids`) `grid_intervals` turns the bounds into whole steps and reads C07 and C08 off the interval grid; `frames_any` (Props/Paths) and `build_any` (Props/EndToEnd) give the windows for any grid. `C103_violated`: `max_dt < min_dt` is accepted and a value is reported at the wrong time. Missing: that case.
* **C104** (`Model/MsdFl`, `Spec/DispFl`, `Lemmas/MsdFl`, `Props/MsdFl`) the functions of C06, C12, C28-C30 once more with a rounding after each operation; an order of summation is a binary tree over the entries (`SumOrder`), arbitrary in the theorems. With `fl = id` the definitions agree with the exact ones (`correctDriftFl_id`, `multiOriginFl_id`, `dSquaredFl_id`, `meanFl_id`, `collMotionFl_id`, `chgMotionFl_id`). The path comes from C91.
* **C105** (`Spec/TimesFl`, `Props/TimesFl`) the parsers already round each product of the times by `Num.fl` (C19, C90); the theorems bound the error for any such function and show that order and sign survive.
* **C106** (`Props/PersistClass`) False among the three analyzers: `to_dict` does not store the class and all three `from_dict` are alike, so `DiffusionAnalyzer.load` accepts the file of a `ConductivityAnalyzer` and `msd` returns the MSCD. `Analyzer.load` rejects the additional key (TypeError), the analyzers miss the key `diff` (KeyError).
* **C107** (`Spec/Unbiased`, `Lemmas/Unbiased`, `Props/Unbiased`) Expectations are Bochner integrals over any probability space. The displacement arrays are random with a fixed shape; `SameMoments` states common mean, common variance and vanishing covariances. Both directions are proved: with `v ≠ 0` the report is right on average iff `n_o` counts the values. For overlapping windows the hypothesis fails, which is why the code divides by a smaller `n_o`; no claim is made about those.
* **C108** (same files) `UniformPicks` states that the picks of the generator are uniform and pairwise independent; `stateAfter` threads the generator through the resamples. The size of each resample is `int(n_o)`, which causes the factor `n_o/⌊n_o⌋`; the factor `1 - 1/N` is the usual one between population and unbiased variance. The number of resamples is fixed by `max_resamples ≤ n_resamples`: with the stopping rule the number of values depends on the values, and the claim is not made.
* **C109** (`Props/Swapped`) False: kinisi/parser.py:80-90 compares `min_dt` with the length of the trajectory only. `C109_violated`: one atom, `min_dt` of four frames and `max_dt` of one; the interval of four frames is skipped, so the displacements over one frame stand at position 0 beside the time of four frames (the alignment of C15 needs ordered intervals). `C109_swapped`: in general, linear spacing and two or more atoms, the intervals descend from `min_dt` to `max_dt` and the first `n_o` is `atoms * b / a`, below one per atom, because `n_o` uses the last interval as the longest. Full statement: `⌊max_dt/d⌋ < ⌊min_dt/d⌋` implies an error. `C109_below_one_frame_partial`: proved for `max_dt < d`, for both spacings and every `min_dt`.
* **C110** (`Props/SingleOrigin`, `Spec/SingleOrigin`) S `fromStart`, `spreadFromStart`: mean and variance over the atoms of the squared true displacement from frame 0. False: kinisi/parser.py:203-207 takes column `i` of the cumulative displacements for the interval at position `i`, and column 0 is the zero displacement of the duplicated first frame. `C110_msd_partial`: exact law for all three formats and changing cells, two or more atoms. `C110_one_frame_late`: the first value is 0 for every trajectory, and on the default grid each value is the one for the time before. `C110_variance`: divided by `atoms * last / interval` instead of `atoms`. `C110_collective_empty`: one collective displacement per interval, so MSTD and MSCD have no value at all. Not covered: one atom (every interval is then skipped), sub-sampling. `C110_one_atom`: with at most one selected atom no interval is kept (`disp.shape[0]*…<=1`), and every analyzer raises.
* **C111** (`Props/PoolOrder`) S the two orders are related by `List.Perm`; curves compared directly. False in two ways (`C111_violated`): analyzer.py:111-115 takes `u[0].volume`, and numpy broadcasting makes acceptance depend on which trajectory comes first (C53). Proved for equal shapes and times (equal times follow from equal shapes for multi-origin, C76): every sum over the rows of the concatenation is a sum over trajectories, hence symmetric. The charges of MSCD must be one scalar; with a list of charges the order of the atoms is fixed by the list.
* **C112** (`Props/AnyHistory`) S `afterCalls`: the calls are run one after the other on the object that the previous one left, whatever its outcome; the claim compares with a single call on the untouched object. `run_same`: outcome and coefficient depend only on the observables, which no call changes. `C112_new`: a new object of the three classes (also tests the error branch of `startOf`, which mutant Q54 showed to be unused).
* **C113** (`Props/Shortest`, spec `Spec/Shortest`) S `Shortest`: an image of the raw step that no other image undercuts; `RightAngled` by inner products, `WithinHalfWidth` by the face normals (the dual basis), no inverse matrix. Right angles: squared lengths separate into the axes (`norm2_right`) and rounding is best on each. Any cell: Cauchy-Schwarz with the face normals bounds the fractional coordinates of a short image by 1/2 (so it is the minimum image of C02), and every lattice vector other than 0 is more than twice as long as the short image. `C113_violated`: the skewed cell `exSkew`.
* **C114** (`Props/CellChoice`, `Lemmas/Agree`, spec `Spec/Agree`) S `StoredIn` (from C101) for both descriptions of one path `x`; `clip` replaces what the model has outside of the shape of an array by zero, so equality after `clip` is equality of numpy arrays. `getDisp_stored`: both unwrapped arrays are `x i j - x i 0`. `Lemmas/Agree` shows function by function (drift correction, sampling, the three bootstraps, all branches and exceptions) that the model never looks outside of a shape. Molecules are excluded: their centres are computed from fractional coordinates (C102 treats them). `C114_violated`: `exSkew` and `exSkew'` span the same lattice.
* **C115** (`Props/Bystanders`, `Lemmas/Bystanders`) S two coordinate functions that agree on `atoms ++ fw` (or on the atoms of the molecules and `fw`). `getDisp_rows`/`correctDriftSeq_rows`: unwrapping works atom by atom and the drift is a mean over the framework rows, so the rows that are read later agree; what is left is the machinery of C114 (`clip`).
* **C116** (`Props/VarFl`, `Lemmas/VarFl`, model `Model/VarFl`, spec `Spec/VarFl`) S `sampleVar`, `ngp`, `varError`; the two-pass algorithm of `np.var` with `fl` after each operation and any order of additions (`varFl_id`, `ngpFl_id`: with `fl = id` these are `npVar1` and `ngpCalculation`). `Near p x X` (relative error at most `p - 1`) is closed under products, rounding, positive division and rounded sums; `sum_about_mean`: moving the centre by `e` adds `n e²`, so the error of the mean enters squared. `squaresVar_near` joins it with the displacement errors of C104.
* **C117** (`Props/Formats`) False (`C117_violated`: `from_ase` does not multiply `step_skip` by `sub_sample_traj`). `Told` is the list of the five readers with their arguments; `told_canonical`: each arrives at the same call of `buildParser`; `parserInit_femto` is the change of unit; C114 for the two descriptions.
* **C118** (`Props/Relations`) S `distinctPart`, `MoveTogether` (`Spec/Relations`). P the gap to the bound as a sum of squared differences (`mstd_gap`), Cauchy–Schwarz for the charges.
* **C119** (`Props/Supercell`) S `superSymbols`, `superMotion`, `Copied`, `superCell`, `superCharge` (`Spec/Supercell`). P relation `Copied` carried through reading, unwrapping, drift correction, windows and observables. Negated for one atom (`C119_violated`).
* **C120, C121** (`Props/CovFl`, `Model/CovFl`) the loop of `_populate_covariance_matrix` with rounding; `populateCovarianceFl_id` ties it to the exact model. C121 negated by a binary64 witness; partial version by a perturbation bound of the quadratic form (`form_perturbed`).
* **C122** (`Props/Species`, `Spec/Species`) three analyses of the same file: the same cumulative displacements and intervals, `interval_rows` gives every array as the rows of its atoms, and the atoms of both species are a permutation of the two lists (`chosen_append`). No assumption on the content of the file.
* **C123, C124** (`Props/Rescale`, `Spec/Rescale`, `Lemmas/Rescale`) the loop of the three constructors commutes with a change of units (`observeAll_scale`), including resampling, so that the whole object is `rescaled`; the fits then follow from C88. `C123_sign` and `C123_one_charge` are equalities of the runs.
* **C125** (`Props/Intervals`, `Spec/Intervals`) S `Grid`, `onGrid`, `ReadsGrid` (one trajectory as a function of the intervals), `SameAtTimes`. `OnIntervals`: with two or more atoms no interval is dropped, and the array of displacements is a function of the interval alone. False for the variances because of `time_intervals[-1]` in kinisi/parser.py:221; the exact ratio is part of the partial theorems.
* **C126** (`Props/Offset`) S `BestLine`, `BestRay` (Spec/Efficiency). The likelihood is a function of the residuals, which a common change of data and line leaves alone; `bestLine_unique` gives uniqueness of the best line also on the boundary (gradient zero), from the parallelogram identity.
* **C127** (`Props/GradientBias`) combines C93 (expected MSD; `ExpectedCurve` now also says that the values are integrable) with C89 (the gradient of highest likelihood is a linear estimate, unbiased for lines). `ExpectedGradient` is the conclusion for both kinds of fit. False because of the additional first observation, from the duplicated first frame (kinisi/parser.py:323, see C13).
* **C128** (`Props/ArrheniusFit`, `Spec/ArrheniusFit`) S `misfit`, `Follows`, `Within`, `BestWithin`. Model `standardBounds` (the default of `StandardArrhenius.__init__`) and the laws of `Model/Arrhenius`. Two temperatures determine an Arrhenius law (`arrhenius_unique`), three a super-Arrhenius law (`superArrhenius_unique`: the difference of the logarithms, cross-multiplied, is a quadratic polynomial with three roots). False because of the default bound (0, 1) for the activation energy (kinisi/arrhenius.py:44).
* **C129** (`Props/Documented`, `Spec/Documented`) S `documentedFit`, `documentedEstimate`, typed from the docstrings. Model: the default values of `GlsArgs`, `BootOpts`, `UncParams`, typed from the signatures, and the functions that use them. False for `model` (kinisi/diffusion.py:308 against 326-327) and `max_resamples` (kinisi/diffusion.py:560, 644, 732 against 543, 626, 713-714).
* **C130** (`Props/FitRuns`, `Spec/FitRuns`) S `LibraryRuns` (each routine of scipy, numpy, statsmodels and emcee returns on the inputs its own documentation allows), `Fittable`, `ValidFit`, `GeneralPosition`. Model: `bootstrapGLS`, `diffusion`, `jumpDiffusion`, `conductivity` with all their branches, and the three constructors. Proved by following every `Except` of the fit: the regime is found, the covariance matrix is finite, the clipped matrix is symmetric with positive diagonal, the scattered walkers are in general position, the chain has the right shape and both columns exist. The matrix handed to `cov_nearest` is shown to meet its conditions. Examples: a library over the reals whose `eig` comes from the spectral theorem, an analysis and its fit.
* **C131** (`Props/FitTrajectory`, `Spec/FitRuns`) S `reportedSquares`, `reportedTotals` (from the true motion), `ValidFit`, `LibraryRuns`. The hypotheses of C130 about the estimate (increasing positive times, positive numbers of samples, positive variances) are derived from the trajectory: the times from C70 and C80, the numbers of samples from the `Usable` of C79, the variances from two true displacements of different length. Examples: one gliding atom, four and eight frames, over the reals, all three analyzers and fits.
* **C132** (`Props/NernstEinstein`) The right-hand side is the textbook formula, with Å³ in cm³ and `k_B = R / N_A` as in C48. For unit charges the constructors of MSTD and MSCD give the same object, because `chgMotion` of ones is `collMotion` along all axes; other charges by C123 and C88, units by C48. Examples: two ions of charge 3, results computed; and the two objects differ for the dimension xy.
* **C133** (`Props/GridFl`, `Lemmas/GridFl`) The model of `np.linspace` rounds after each operation (`linspaceInt`). The exact values are multiples of `1/(n-1)`, so an error below `1/(n-1)` (`lin_error`) changes the floor only at whole frames (`floor_near`), and only downwards. Order: two neighbours could meet only if the later one is a whole frame that lost one and the spacing is exactly one frame; but then nothing is rounded. `C133_violated` is computed in the kernel with `fl64`.
* **C134** (`Props/Increments`, `Lemmas/Increments`, `Spec/Increments`) The matrix of `populate_covariance_matrix` is `w_min(i,j) / (n_i n_j)` with `w = v n²`, the covariance of sums of independent increments, each divided by `n_i`. So `rᵀ A⁻¹ r = Σ (Δ(n r))² / Δw` (`inverse_form`, from the sum-of-squares form of C41). For all starting points `n_o · t` is constant (`C134_constant`, from the description of the intervals used for C125; `C134_constant_atoms` in `Props/AnyAtoms` for a single atom, where long intervals are left out and ascending times make the kept ones a prefix), and the gradient drops out of all increments but the first. Consequence, not mentioned in the documentation: with `fit_intercept=False` the estimate is the MSD over time of the first fitted interval, and the example fits a *falling* curve (8 at time 4, 7 at time 5) with gradient 2. The chain is that of `onePoint`, since Metropolis acceptance uses differences of log-likelihoods only (`runChain_shift`). Hypothesis on the routines: the pseudo-inverse of a positive definite matrix is the inverse, the optimiser returns maxima; hypothesis on the data: the conditioning has not changed the matrix (`b'.covariance = b'.npdCovariance`). When `max_cond` is reached, the matrix is a different one and the statement does not apply.
* **C135** (`Props/Precision`, `Spec/Precision`) The matrix for some of the intervals is the corresponding part of the full matrix (`populate_select`, from the entries of C40), so the best estimate from some of the intervals is one of the unbiased estimates from all of them, with the same variance (`estVariance_spreadOut`), and C89 gives the order. `SpreadLine` and `SpreadRay` state the width through the log-likelihood itself, without reference to estimators. `C135_ray` uses the closed form of C134. The posterior is that of the likelihood under a flat prior on non-negative gradients; the truncation at zero is not considered (the definitions speak of maxima with positive gradient).
* **C136** (`Props/Axes`) `FitWeights` says that a matrix is the inverse of the covariance matrix built from the values of a `Boot`, `fitLL` is the log-likelihood of C42 with it. Without an intercept C134 gives the best gradient as first value over first interval, and the first values add up by C28. With an intercept the best gradient depends on the variances of the later intervals, which are not the same mixture along all axes; `C136_violated` computes the three fits of one small trajectory (best lines unique, from `C134_intercept`). The statements are about the maximum of the likelihood; the sampled posterior is not considered. `Props/AxesTotal` does the same for the MSTD: `mstd_entries` lists every value whatever the numbers of observations, `C29_additive` adds them over disjoint axes. The MSCD takes no axes (C31).
* **C137** (`Props/Limits`) Any stored trajectory is how the path of its minimum images (`seenPath`) would be stored, so C101 applies to files that hold anything; Cauchy-Schwarz over the steps of a window gives the speed limit. Uniform motion and the cage are evaluated on `reportedMsd`; the bound of the gradient combines `fit_ray` (C136) with `C134_constant_atoms`.
* **C138** (`Props/Collective`) On `reportedTotal` of C101 with the weights 1 (MSTD, chosen axes) or the charges (MSCD, all axes). Neutral charges: the framework term factors out of the weighted sum. Matched motion: the value for one frame is a sum of squares over all steps, so it is zero exactly when every step of the weighted sum is. The bound of the gradient as in C137.
* **C139** (`Props/FilePrecision`) `StoredWithin` says what the imprecise file holds, with errors and images free. It is how the path plus its errors would be stored (`within_path`), so C101 applies to both readings, with the same intervals (`same_taus`); the displacements differ by the errors of the two end points only, and Minkowski's inequality (`le_add_sq`, from its squared form) carries this to the averages.
* **C140** (`Props/LongFit`) `FittedRay` collects what a fit needs (positive variances, free in the definition so that both values of `model` are covered, the inverse of the matrix that `populateCovariance` returns, the best line). Since the number of observations falls as one over the time (C134), the weights put the best line through the first fitted value (`fit_ray`), so an error of the gradient is an error of that value and C97 with Chebyshev's inequality bounds its probability. The events need not be measurable, the outer measure is bounded. With an intercept (`C140_line_error`, `C140_line_limit`) C141 replaces `fit_ray`, and a union bound over the intervals replaces the single value.
* **C141** (`Props/CurveErrors`) `best_line_clipped` gives the best line in closed form, since `n t` is constant (C134): the intercept is a weighted mean of the chord intercepts of neighbouring values, with non-negative weights when `v n²` increases, and the gradient is the slope from it to the first value, clipped at zero (`line_error`). `FittedLine` leaves the variances free, so `model=True` and `model=False` are both covered. Used for `C140_line_error`, `C140_line_limit`.
* **C142** (`Props/Exceptions`) The error branches, as theorems over all other arguments. `AllRaise` says that none of the three analyzers is built. Added because random edits of exception kinds in the model were not noticed by any theorem (see `seeded/LOG.jsonl`).
* **C143** (`Props/Continue`) `SameSaved` (C58) leaves out `_popt`, `_model_v` and `_npd_covariance_matrix`, which `to_dict` drops. `run_saved`: every fit writes them before reading them, so `SameSaved` is kept by every call and the outcomes agree; induction over the calls (`BehaveAlike`).
* **C144** (`Props/LongTotal`) The total displacement is a walk of its own with steps indexed by frame and axis; `reportedTotal_windows` writes the reported value as an average over windows of that walk and `var_overlap` (C97) bounds its variance, with the number of atoms replaced by one: averaging over atoms does not help. The curves end at half of the intervals, hence `4 tau <= F` (`resolved_half`). The fit as in C140 (`totalRay_ratio`, `gradient_off`). With an intercept (`Props/LongTotalLine`, for both curves through `Collective`) C141 gives `line_off` and a union bound over the intervals follows, as in C140. Example: two atoms that always move together, for which the MSTD tends to twice the value of independent atoms.
* **C145** (`Props/PoolFit`) `RayFit` says that a gradient maximises the likelihood of a fit without intercept of the values of a `Boot`; by C134 it is the first value over the first time, and the first values average by C53 and C122. `C145_violated` runs the analyzer on a trajectory of three frames and on the pool of it and its copy and computes both best lines (unique, `C134_intercept`). About the maximum of the likelihood, not the sampled posterior.
* **C146** (`Props/ModelFit`) `ModelWeights` are inverses of the matrix that `generate_covariance_matrix` builds from `modelVariance` with any positive coefficient (what `curve_fit` returns is not assumed). `model_weights`: for numbers of observations inversely proportional to the times the matrix is a factor times a matrix of the times only (`walkMatrix`), so weights of different fits are proportional. The normal equations (C45) are linear and do not see the factor. The same trajectories as in the counterexamples of C136 and C145 serve as examples.
* **C147** (`Props/Chords`) The inverse of the covariance matrix is tridiagonal (`line_error` of C141 solves the normal equations), so the best line only sees neighbouring intervals. `Spec/Chords` defines the intercept of the line through two neighbouring points and weighted means; `chords_line` brings the solution into this form for any positive weights. For the random walk model the weights are exact (`C147_model`). `C147_early` bounds the share of the later intervals by a telescoping sum (`chord_tail`); examples on the trajectories of C145.
* **C148** (`Props/FitPrecision`) Composes C139 with `C147_close`. `square_gap` turns the statement about roots into one about values without taking roots (squares are dense in an Archimedean field). `run_grid` shows that the default intervals meet the conditions of C147. The examples are the trajectories of C139.
* **C149** (`Props/ActualFit`) Ties the fits of C141 and C146-C148, which speak about the line of highest likelihood, to `bootstrapGLS`: `fit_line_start` follows the steps of the fit, `model_pd` and C41 show that the matrix is positive definite, so that the hypothesis on `pinvh` (an exact inverse for positive definite matrices) applies. The example of `C149_runs` goes from frames to the chain.
* **C150** (`Props/FitRounding`) Composes C104 with `C147_close`: `C150_mean` for runs of the library (through C28 and `C147_runs`), `C150_path` from the stored coordinates. Only the values of the curve are rounded; intervals and fit are exact. In the example of `C150_mean` the first value, 5/3, is no binary64 number, and the gradients differ.
* **C151** (`Props/SubFit`) False, a consequence of the finding of C34. `model_matrix` gives the matrix for any times and numbers of observations; it is positive definite if and because `dt**2 * n_o` increases, which for `dt = s + d k i` and `n_o` proportional to `1 / (s + d i)` is an inequality between polynomials. `model_scale` makes the lines of highest likelihood independent of the coefficient found by `curve_fit`, so that the witness of `C151_violated` is about all of them. The hypothesis `sub_sample_dt = 1` of C134-C150 is needed for this reason.
* **C152** (`Props/Conditioning`, `Lemmas/Conditioning`, `Spec/Conditioning`) For a positive definite matrix `A` with inverse `P`, `x_i**2 <= P_ii * (x A x)` (Cauchy-Schwarz), so that the eigenvalues of `A` lie between `1 / trace P` and `trace A` and those of the correlation matrix are at least `1 / sum A_ii P_ii`. The diagonal of `P` follows from the increments of C134 (`inverse_form`), and the sums over distinct whole numbers are compared with `sum j**3`, `sum 1 / j**2` and `sum j`. The defect of C43 (the first eigenvalue is taken as the largest) has no effect here, because no eigenvalue is below `lambda_0 / cond_max` for any choice of `lambda_0`. That `cov_nearest` returns such matrices unchanged and that `eig` returns orthonormal vectors are assumptions about statsmodels and numpy (`KeepsCovariance`, `Diagonalises`).
* **C153** (`Props/PoolModel`) C147 gives the fitted gradient as the positive part of a linear function of the curve (`chordSlope`), and the positive part is convex. `C153_runs` follows the counts through the pooling (they add up, C53), so that they remain inversely proportional to the times. Single-atom trajectories may lose long intervals that the pool keeps, hence the hypothesis on the numbers of intervals. `exModel_flat` shows the highest likelihood for a falling curve at the boundary.
* **C154** (`Props/FromPaths`, `Spec/FromPaths`) Puts C101 (curve of the true paths), C152 (the matrix is not changed), C149 and C134 (maximum of the likelihood) and C48 (conversion) together; `walkGradient` is the specification, a function of two lists. `ChainFrom` says that the start is the point of highest likelihood and what the chain is; emcee itself is a parameter of the model. The intervals are those of the default grid with at least two observations, for the collective quantities the first half of them, filtered by `start_dt`.
* **C155** (`Props/Coefficient`, `Spec/Coefficient`) `curve_fit` is a parameter of the model; `LeastSquares` is its documented behaviour, and `misfit_min` the minimum over a half line. The model variances are `a t² / n_o`, and `n_o` is inversely proportional to `t`, so that the regressors are `t³` and the weights `t⁶`. The bound on the share compares sums of sixth powers with seventh powers (`seven_le`). Nothing is claimed about the statistical quality of the variances themselves.
* **C156** (`Props/Width`, `Spec/Width`) Squares completed in the likelihood: `RayVariance` and `LineVariance` say that the function given to emcee is the logarithm of a normal density in the gradient (with an intercept: in both parameters, conditional intercept first), and `-inf` for negative gradients. The increments of the model (C134) make the sum of squares a sum over chords; `C156_double` telescopes the weights against third powers. The variances are those of the normal distribution before it is cut off at zero.
* **C157** (`Props/Overlap`, `Props/Counts`, `Lemmas/Overlap`, `Spec/Overlap`) The covariance of two squared displacements is the variance of the one over the shared steps, `2 c² σ⁴` for `c` of them; `sharedSum_long` sums the squares of the overlaps in closed form, `windowSum` takes off what the short first window lacks (C14). `read_count` gives `n_o` exactly: atoms times longest interval over interval. The mean of the reported variance follows from the second moments of the squared displacements (`mean_varOn_win`); both sides are exact there, the theorem states the bounds. Steps with three values (1/6, 2/3, 1/6) have the moments of a normal distribution and stay below half the cell, so that the example meets every hypothesis.
* **C158** (`Props/ErrorBar`, `Lemmas/PowerSums`, `Spec/ErrorBar`) `fitted_coefficient` (from C155) gives the coefficient as the mean of the intervals' own ones with the weights `t⁶`; `mean_varOn_win` (from C157) gives the mean of each exactly, now for every interval up to the whole trajectory (two atoms have two values even there). `varOn_all` bounds it by `(1 - 1/N)(1 - 2/τ)` and `N/(N-1)(1 + 1/(2F))` of `2 d σ⁴ τ²`; the weighted mean of `1/τ` is at most `7/(6F)` for every first interval (`fifth_le_sixth`, from the closed forms of the sums of fifth and sixth powers). The gradient is that of the first fitted interval (C156), whose variance C157 bounds. `C158_fit` ties the quantities to `popt` and the sampled likelihood. The factors differ from the plain statement ("the variance of the samples is the variance of the gradient") by a factor between 1 and 3/2 that stays: overlapping windows know more than windows side by side.
* **C159** (`Props/OverlapTotal`, `Lemmas/Groups`) The total displacement is treated as that of a single particle with the steps `Ξ`: `lonePath` is its path, `loneArr` the array of totals; `total_stats` carries the exact variance and the exact mean of the reported variance over from C157. The code divides `n_o` by the number of atoms (`C32_variance_mstd`, `C32_variance_mscd`), which leaves `F / τ` (`base_entry`, split off from C157). `varOn_bounds` has the share `τ / F` as a parameter now. `half_entry`: two atoms have every interval resolved, so the half that is kept ends at `F / 2`; there `half_bound` of C157 gives 3/5. `weightedMove_indep` (weighted sums over disjoint groups of independent steps are independent) and `weightedMove_moments` show that independent atoms meet the hypothesis. Examples: two independent atoms with the charges 2 and -1, 1000 and 24 frames.
* **C160** (`Props/ErrorBarTotal`) The lists of a run end at half of the frames (`run_lists_mstd`, `run_lists_mscd`). `total_varOn`: for an interval of `T` frames the mean of the sample variance of the squared total is between 1/2 and `3/64 + 1/F + 15 (F + 2) / (64 T)` of that of independent windows; the upper bound touches the exact value at `T = 3 F / 7`. `weighted_upper` takes the mean with the weights `T⁶` (C155), where `1 / T` is on average at most `7 / (6 M)`, `M = F / 2`. The true variance of the gradient is at least 2/3 of that for independent windows (`var_bounds` of C157). `total_error_bar` combines them for lists with given entries. Example: two independent atoms with the charges 2 and -1, 1000 frames: at most 9/10.
* **C161** (`Props/ErrorBarPool`) `msd_error_bar` (`Props/ErrorBar`) is C158 for lists with given entries. `AllRead` says that a base object holds all intervals of a trajectory as it truly moved (`single_read` for one trajectory, `lists_of_read` for what `MSDBootstrap` makes of it). `pool_read`: a pool (C53) is the base object of one trajectory of `k N` particles in the unit cell, with the steps of the walkers, without a framework (`poolPath`). `ReadPool` names the three readers with a list of trajectories and `dtype='identical'`. Example: two trajectories of two atoms, 1000 frames: between 0.74 and 2.01.
* **C162** (`Props/PoolTotal`) A defect of the code, proved as such. `_stack_trajectories` (analyzer.py:274-286) puts the trajectories along the atom axis, and MSTD and MSCD (diffusion.py) square the sum over this axis, so that the products of the total displacements of different trajectories come in. For independent trajectories these have mean zero, so the mean of the pool is `k` times that of one trajectory and the variance `k²` times (`pool_totals`); the jump diffusion coefficient divides by the number of pooled atoms `k N`, the conductivity by the volume of the first trajectory. `poolStep` numbers the steps as the pool does, `sum_walk` is the walk of the sum of `k` walkers, `mean_of_totals` reads the mean of separate analyses as the MSD of one particle per trajectory. C54 is the case of copies of one trajectory. `C162_msd` is the comparison with the MSD. Example: two trajectories of two atoms, 1000 frames, charges 2 and -1. At interval `r + 1` this is also the gradient of the random walk fit from `r` on without intercept, times its time (C134).
* **C163** (`Props/ErrorBarPoolTotal`) `lists_of_read_mstd`, `lists_of_read_mscd` say what the two classes make of a base object that holds all intervals; with `pool_any` (C162) the pool is one trajectory whose total displacement is the walk of the sum of `k` walkers (`sum_walk`), to which `total_error_bar` (C160) applies. Example: two trajectories of two atoms, 1000 frames, charges 2 and -1: at most 9/10.
* **C27** the table. **C28–C30, C32** S finite sums over `range × range`. P loop invariant of `observeAll`. **C31** False: all axes always (true if nothing moves along the others, `C31_planar_partial`).
* **C33** False: a skipped interval before a recorded one is an IndexError; succeeds iff skipped intervals are at the end.
* **C34** False: `n_o` is not sub-sampled (hence `s`); values and intervals are proved for all three observables. **C35** Cauchy–Schwarz. **C36** False with a nan.
* **C37–C39** M `sample_until_normal`, `_bootstrap`, `_bayesian_bootstrap` over an arbitrary random stream. C38 False: the warning tests the number of values only.

### Covariance and fit (`Model/Covariance`, `Model/GLS`, `Props/Covariance`, `Props/GLS`, `Props/Fit`, `Props/History`)
* **C40–C42** M `_populate_covariance_matrix` (loop with assignments), `_model_variance`. P entries by induction over the loops; PSD by summation by parts.
* **C43** False when `numpy.linalg.eig` does not return the largest eigenvalue first; proved when it does.
* **C44** M `np.argwhere(dt >= start)[0][0]` and the cuts. **C45** S normal equations. P completing the square.
* **C46, C47** M the accept/reject step over arbitrary proposals, thresholds, initial points, `get_chain` slicing. **C48** conversion.
* **C49** False for every fit without intercept. **C50** False: some attributes are overwritten first. **C51, C52** induction over the calls.

### Analyzers (`Model/Analyzer`, `Spec/Analyzer`, `Props/Analyzer`)
* **C53** False in the rejection clause (a single mobile atom is repeated by numpy); `Props/PoolContent` says what a pool then holds. **C54** False for MSTD/MSCD, for *every* trajectory: k copies give k² times the value.
* **C55** False for every charge array. **C56, C57** by cases. **C76** False with single-origin sampling (`C76_violated`). With several origins (`Props/Pooled`) the shape check compares, for every interval, atoms × windows; the first interval is the same for all trajectories, hence so are the lengths, hence the intervals. For a single atom the long intervals are dropped; the first one is kept whenever any is (`Props/PooledOne`), which is enough.
* **C70** (`Props/EndToEnd`) composition from stored coordinates to `diff.n`, `diff.dt`.
* **C78** (`Props/EndToEndTotal`) the same from the Cartesian positions of an MDAnalysis universe; the frames read are shown to be `wrapped`.
* **C79** (`Props/Totality`) no exception for valid input: every error branch between the constructor and the end of the `__init__` of the three bootstrap classes is excluded, for every combination of `bootstrap`, `block` and `sub_sample_dt`; what is assumed of `normaltest` and `pyblock` is `Spec.StatisticsRun` (`Spec/Runs`, `Lemmas/Runs`). `C79_violated`: pymatgen with integer `time_step` and `step_skip`. `Props/Selected` extends it to atoms named by number, explicit frameworks, molecules and cells that change (`C79_selection_partial`, `C79_molecules_partial`). `Props/GridTotal` extends it to intervals chosen with `min_dt`, `max_dt`, `n_steps` and `spacing` (`C79_bounds_partial`).
* **C80** (`Props/EndToEndTotal`) MSTD and MSCD from stored coordinates; `Spec.reportedTotal`.
* **C81** (`Props/Symmetry`) `Curves c k` relates two analyses: values times `c`, times times `k`, for the three analyzers. Drift, rotation, unit of length, order of the atoms; `C81_drift_needs_framework` is the case left out.
* **C82** (`Props/Symmetry`) the same relation for two values of `time_step`; `C82_intervals` for the intervals.
* **C83** (`Props/Reversal`) False (`C83_violated`); the exact difference between the MSD of the two directions is `C83_reversal_partial`.

### Persistence (`Model/Persist`, `Spec/Persist`, `Props/Persist*`)
M `to_dict`, `from_dict` (base class on Python values; derived classes re-run the constructor), `_dict_to_group`, `_group_to_dict`, `save`, `load`.
* **C58** False with `sub_sample_dt ≥ 2` (sub-sampled twice) and for `MSCDBootstrap` (TypeError always). **C59** S `Comes`, `Document`. P induction over documents; the
  numerals of list elements are sorted as numbers.
* **C60** False (empty lists, `None` in lists, `'NULL'`, keys starting with `list`). **C61** False in the last part (directories with a dot).
* **C62** False for two processes that both create the file. **C63** False. **C64** every prefix of the assignments. **C65** False for analyzers with a bootstrap object.

### Arrhenius (`Model/Arrhenius`, `Props/Arrhenius`)
* **C66, C67, C69** over ℝ. **C68** heap model of the default list; False; the exact temperature used after any history is proved. **C77** False for descending temperatures.

## 4. Trusted base

* Lean 4.33.0 kernel; Mathlib as installed. Axioms: only `propext`, `Classical.choice`, `Quot.sound`. `Verif/Audit.lean` (generated) runs
  `#print axioms` on every theorem named in the manifest; its output is part of the build log. No `sorry`, no own axioms, no `native_decide`, no `bv_decide`. Concrete witnesses
  are evaluated with `decide +kernel` over ℚ.
* The reading of Python, numpy, h5py, emcee, scipy behaviour written in the comments of `Py.lean` and of the models. It could not be compared with a running program here.
* Exact field arithmetic instead of binary64, except in the time arithmetic (`fl`, C90), in the unwrapping (`Model/DispFl`, C91, C105) in the MSD, MSTD and MSCD (`Model/MsdFl`, C104), in the covariance matrix (`Model/CovFl`, C120) and in their variances and the non-Gaussian parameter (`Model/VarFl`, C116).

### Modelled (line ranges of /repo/kinisi)
| file | modelled | not modelled |
|---|---|---|
| parser.py | 53-92, 102-148, 150-222, 259-293, 303-356, 394-439, 449-508, 547-600, 615-671, 674-764 | progress bars; reading the ASE/pymatgen/MDAnalysis objects (a frame is: symbols, coordinates, cell, volume); numpy broadcasting of a cell list of length 1 |
| diffusion.py | 23-38, 54-241, 258-303, 305-521, 552-602, 636-688, 723-780, 783-888 | progress bars; warning texts (only whether one is issued); numerical algorithms behind `Oracle` and `GlsLib` |
| analyzer.py | 27-84, 86-290, 292-348, 351-427 | import failures of optional packages |
| diffusion_analyzer.py, jump_diffusion_analyzer.py, conductivity_analyzer.py | `to_dict`, `from_dict`, all `from_…`, `flatchain`, fits | – (the one-line properties: which attribute they read, C100) |
| arrhenius.py | 20-22, 60-93, 111-122, 142-174 | `uravu.relationship.Relationship` (the sampling of Arrhenius fits) |

### Differences between model and code that a reader should know
* Lists of arrays keep entries outside their shape (`Arr3.get` is total); no statement uses them.
* Random numbers are arbitrary streams; `dirichlet` is any vector (C39 assumes weights ≥ 0 with sum 1).
* `emcee` moves are arbitrary proposals and thresholds per walker and step, so every real move is covered.
* In persistence, `uravu` distributions are an abstract type with `to_dict`/`from_dict`; hypotheses on them are `GoodLib` (a witness is `samplesLib`).
* A crash during `save` leaves the datasets assigned so far; a file that HDF5 cannot open is an exception on load anyway.

## 5. Mutation testing

`seeded/LOG.jsonl` has one line per wrong program: the definition edited, the edit, the claim it breaks, the declarations whose proofs broke, and the property
theorems that broke or rest on a broken lemma. `tools/mutate.py` runs the edits of `seeded/mutants*.py` on a scratch copy. To see every consequence of an edit it
cuts each proof that breaks (in the scratch copy only) and rebuilds until the whole library compiles, then reads off which property theorems depend on a cut.
Survivors led to the changes listed in the field `tightened`.
What the log leaves out and what it does not show: the 66 random edits (`Y…`) that gave an ill-typed model are not listed; where an edit was run again, the line is that of the
last run, with a note; names of theorems renamed since are the new ones; `run_stopped_at` marks runs that ended before all modules were tested. The lines W07, W08 and W10 were first
written from what the errors seemed to mean, not from a test of the theorem named; they were run again and now say what that run gave.
