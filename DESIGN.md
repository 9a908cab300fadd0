# DESIGN

Formal model, in Lean 4 + Mathlib, of `mathematicalmichael/mud` (`/repo/src/mud`), and what is proved about it.
The property list is `properties.jsonl` (generated by `tools/props.py`), the status of each property is `MANIFEST.json`.

## 1. Conventions of the model

* **Shallow embedding, exceptions as values.** Each Python function becomes a Lean function returning `Except Err _`;
  `Err` distinguishes the Python exception classes (`ValueError`, `AssertionError`, `LinAlgError`, `TypeError`,
  `AttributeError`, `IndexError`, `UnboundLocalError`, `ZeroDivisionError`, `KeyError`, `NameError`, ...).
  Objects become structures; a method that mutates `self` becomes a state transformer that keeps the mutations done
  before an exception was raised.
* **Arrays.** Two-dimensional arrays in the linear-algebra part are `Arr2` = (rows, cols, `Matrix (Fin r) (Fin c) ℝ`);
  `@`, `+`, `-`, `*`, slicing, `vstack`, `inv`, `pinv` check shapes and broadcast at run time as NumPy does.
  Theorems are stated for typed matrices `Matrix (Fin d) (Fin p) ℝ` injected into the model, for all `d`, `p`.
  In the sample-based part arrays are tables (`Tab`: list of rows with a column count) of extended reals.
* **Numbers.** Exact real arithmetic replaces binary64. Where the code's behaviour on `nan`/`inf` matters (densities, weights,
  divisions) values are `F = fin ℝ | +inf | -inf | nan` with the IEEE rules (signed zero is not modelled).
  Rounding is modelled for `wme`, `DensityProblem.fit/mud_point/expected_ratio`, `BayesProblem.fit/map_point` (`Model/Rounded.lean`,
  standard model: relative error `u` per operation, any order of summation, unbounded exponent range) and as an error per update of
  `iterate` (C141); elsewhere rounding error, overflow, and the `rcond` cut-off of `pinv` caused by rounding are outside the model.
* **External code.** `np.linalg.inv` = exact inverse, raising `LinAlgError` on singular or non-square input.
  `np.linalg.pinv` = the Moore–Penrose inverse; its existence and uniqueness are *proved* (Lemmas/Pinv.lean), not assumed.
  `np.linalg.svd` = any factorisation satisfying SVD's contract (a parameter with that contract as hypothesis).
  Its existence for every matrix is proved, so theorems that assume it are about every matrix.
  User distributions (`.pdf`), the random generator and file reading are parameters. `scipy.stats.gaussian_kde` is a parameter
  (`Env.kde`) in the general theorems and a concrete function (`Model/Kde.lean`, from SciPy's documented definition: weighted
  covariance, Scott/Silverman factor, `LinAlgError` for singular covariance) in C30, C32, C33, C79–C81.
  `scipy.special.erfinv` = the inverse of the integral `erf`, proved to be a bijection onto (-1, 1).
* **Python semantics modelled explicitly**: keyword binding of calls (`bindCall`), negative indices, truthiness, `len`, iteration
  errors, default arguments, mutation of arguments where it is observable, in-place numpy updates and aliasing where the code relies on
  it (C37), and state left behind by a call that raises.

## 2. Trusted base

* Lean's kernel; axioms `propext`, `Classical.choice`, `Quot.sound` only (checked with `#print axioms`, and by vcheck).
* The reading of the Python source, of NumPy/SciPy semantics written in `Verif/Model/*.lean`; every definition cites
  the file and lines it models. The code has not been executed.
* Modelled: `base.py` (LinearGaussianProblem, LinearWMEProblem, IterativeLinearProblem, DensityProblem, BayesProblem,
  SpatioTemporalProblem: state, validation and numerics), `funs.py`, `norm.py`, `util.py`, the non-drawing parts of `plot.py`
  and of `examples/` named in the properties.
* The command line (`examples/examples.py`) is modelled from the tokens click splits it into: which values are usage errors, which
  of several given values count, what the group's `--seed` and `--save-path` do, and what the bodies compute (C119, C122–C124).
  FEniCS is a parameter (`Dolfin`: available or not, what a solve returns), files are a map from path to content.
* Probability (C128 onwards) is Mathlib's: measures, `multivariateGaussian`, `gaussianReal`, independence, almost sure limits. The
  generator is then a random variable with the stated law; that numpy's generator realises that law is assumed by the hypothesis of the theorem.
* Not modelled: matplotlib drawing (only the numbers, and for C152–C155 the keywords, handed to it), the PDE solver itself, click's splitting
  of a command line, `--help`, the `xarray`/pickle file formats, rounding outside C137–C141, underflow and overflow, warnings and logging; the drawing helpers of `examples/` beyond the numbers they hand to matplotlib.

## 3. Layout

    lean/Verif/Model/   the model, one file per source area
    lean/Verif/Spec.lean  small specification vocabulary used in theorem statements
    lean/Verif/Lemmas/  helper mathematics (pseudo-inverse, PSD algebra, projections, lists)
    lean/Verif/Props/   property theorems and, beside each, concrete non-vacuity examples
    seeded/LOG.jsonl    mutation experiments (section 6)

Naming: theorems of property `Cnn` are named `Cnn_...`; suffix `_partial` when only part is proved; `_refuted` proves that the
property as stated is false of the code (concrete witness).

## 4. Plan per property

| id | what is modelled | how it is proved |
|----|------------------|------------------|
| C01 | `LinearGaussianProblem.__init__/solve('mud')` | residual of the formula is `(P P⁺ - 1) z`; range of `AΣAᵀ` = attainable set via pinv laws |
| C02 | same | optimality: `x - mud ∈ ker A`, `mud - mean ∈ range ΣAᵀ`, Pythagoras in the `Σ⁻¹` norm |
| C03 | same | `pinv (c•P) = c⁻¹•pinv P`; cov_o not read |
| C04 | solve('mud_alt'), funs.mud_sol, mud_sol_with_cov | algebra with `P⁺P=1`; counterexample in the singular case |
| C05 | updated_cov (method and function) | `A up Aᵀ = P P⁺ C P⁺ P` |
| C06 | same | `up = (Σ - K P Kᵀ) + K C Kᵀ`, first summand a Schur complement written as `Lᵀ Σ L` |
| C07 | same | multiply out the documented formula, uniqueness of inverses |
| C08 | solve('map') | completing the square |
| C09 | same | Woodbury identity, PSD order |
| C10 | solve('ls') | orthogonality of residual (Penrose equations) |
| C11 | LGP object state machine | frame invariant, induction over histories incl. failing calls |
| C12 | Python slicing in solve | equality of runs with the sliced object |
| C13 | `__init__` | case analysis over all input forms; iff for ValueError |
| C14 | solve | algebra; pinv of congruence when invertible |
| C15 | compute_functionals | **false of the code** in general (b used twice, `mean_o.T` broadcast, alpha): witness + partial |
| C16 C17 | funs.performEpoch, iterate | induction over index list / epochs |
| C18 | same | Pythagoras per step, induction over the chain |
| C19 | same | linear contraction on the row space (compactness), limit |
| C20 | IterativeLinearProblem, iter_lin_solve incl. keyword binding | **false of the code** (unknown keywords): TypeError proved for all inputs |
| C21 C22 | funs.wme | sums over lists; shape cases; the (n,1)-data sub-claim is **false** |
| C23–C25 | util.transform_linear_map, transform_linear_setup | finite sums; validation as iff |
| C26 C27 | LinearWMEProblem | from C01/C05 + C23 |
| C28–C35 | DensityProblem state machine | refinement to a small spec, argmax lemmas; C29 **false** (stale after set_observed) |
| C36 | util.fit_domain | order lemmas |
| C37 | plot_param_space's effect on the domain | **false**: in-place padding; exact growth law proved |
| C38 | DensityProblem constructor | **false**: pad_domain ignored |
| C39 | constructor | **false**: one sample; exact behaviour proved |
| C40–C43 | BayesProblem state machine | refinement; C42, C43 partly **false** (log mode) |
| C44–C46 | norm.py | PSD algebra; C46 **false** (AttributeError) |
| C47–C56, C59 | SpatioTemporalProblem | list indexing lemmas, invariants over setter histories; several **false** (C49, C51, C54–C56, C59 part) |
| C57 C72 | load | map over fields; C72 **false** (NameError) |
| C58 | data_prob | **false** (default sample_dist rejected) |
| C60 C61 | null_space, rank_decomposition with an SVD contract | orthogonality algebra; C61 **false** |
| C62 C63 | meshes | index arithmetic |
| C64 | plot_dist margins | witness; **false** for pdf source |
| C65 | std_from_equipment | Gaussian integral with `erf` as integral, `erfinv` as its inverse |
| C66 | add_noise | **false** for column signals; proved for 1-D |
| C67 | mud_problem / map_problem wrappers | case analysis |
| C68 | plot_contours end points | **false** in general; exact condition proved |
| C69 | plot_params_2d | **false**; guards proved |
| C70 | piecewise_eval_from_vector (fenics.py) | the emitted expression text is tokenised, parsed and evaluated by a separate specification; induction over the knots |
| C71 | print_res | list filter lemmas |
| C73 | norm.full_functional on 1-D data | **false**; exact shapes proved |
| C74 C75 | SpatioTemporalProblem measurements / load | RNG as explicit stream; invariants |
| C76 | SpatioTemporalProblem learned QoI (pca/svd) | SVD contract; isometry |
| C77 C78 | plot_fun_contours, plot_sol: the numbers handed to matplotlib | mesh lemmas + C15 evaluation; C77 **false** with several observations |
| C79–C81 | set_predicted() with scipy's kernel estimate | positive definiteness of the weighted covariance, Gaussian integral in n dimensions (Lemmas/Gauss.lean), congruence |
| C82–C84 | solve('mud'/'ls', output_dim) | Pythagoras in the initial-covariance norm; projection idempotence |
| C85 | solve('map') | completing the square bounds, limits |
| C86–C88 | examples/linear.py: random_linear_problem, noisy_linear_data, rotation_map(_trials) | RNG stream as in C74; C19 for the iteration limit; C88 **false** in part (seed, trials) |
| C89–C91 | examples/simple.py: polynomial_1D_data, identity_1D_density_prob, identity_1D_bayes_prob | frozen distributions = density + stream of variates; C28/C41 plus sum-of-squares decomposition; C89 **false** in part (sigma²) |
| C92–C95 | plot_param_space and plot_obs_space of DensityProblem and BayesProblem (Model/PlotProb) | the objects get their distribution attributes; a figure is the list of curves and lines drawn, drawing itself (matplotlib, plot_dist: C74–C76) is a parameter; refinement over all histories to the settings; **false** in part (stale or missing weights, log posterior as weights) |
| C96, C97 | IterativeLinearProblem.get_errors, plot_chain, plot_chain_error (Model/Chain) | histories by induction from C20; cache by length; **false** |
| C98, C99 | plot_ts, sensor_scatter_plot, sensor_contour_plot (Model/PlotTs) | from C48; drawing and triangulation external; **false** in part |
| C100-C103 | preprocessing.pca, svd and their use in mud_problem (Model/Preprocessing) | StandardScaler and PCA written out; the decomposition is any that satisfies `IsSvd`; uniqueness up to sign and Ky Fan's inequality in Lemmas/SvdUnique; C101 **false** in part |
| C104-C105 | random_linear_wme_problem, run_wme_covariance (Model/ExamplesWme) | generator as explicit stream; C104 **false** in part (scalar deviations), C105 via the updated covariance of C05-C07 and its monotonicity in the data covariance |
| C106 | the default distributions and `estimate` on a fresh problem | default densities identified with Mathlib's `gaussianPDFReal` and `volume`; kernel density estimate of Model/Kde |
| C107 | `run_high_dim_linear` up to the drawing, with the overwritten `alpha` and the solves that keep the problem | each row of errors tied to the minimisers that define the three solutions; the tables' columns from uniqueness of the minimisers |
| C108 | `run_comparison_example`: the loop, both problems, both figures as lists of curves; titles, limits and saving are left out | induction over N_vals with the generator state; argmax of the two posteriors over the samples in the domain |
| C109 | `spline_objective_function_2d`, `interp1d`, `plot_solution_spline` (points of the lines) | hat functions; best approximation by two functions, linear independence on the grid |
| C110 | `load_poisson_prob`, `load_adcirc_prob` over the model of `load` and `measurements_from_reference`; the file system is a parameter | stepping the assignments of `load`; C74 for the noise |
| C111 | `mud_problem` with selections, `pca`, `svd` | a reordering of the columns is an equivalence of `Fin K`; uniqueness of right singular vectors up to sign (`IsSvd.vh_unique`); the affine invariance of the KDE estimate of C80 for a diagonal matrix of signs |
| C112 | `run_2d_poisson_trials`, `random.sample`, `np.lexsort`, slicing, `plot_param_space` over the loader of C110; numpy's and Python's generators are parameters | induction on the pool of `random.sample`; merge sort is stable; `Forall₂` over `N_vals`; C79 for the KDE, C111 for the order |
| C113 | `run_2d_poisson_sol`, `plot_response_ex`, `plot_qoi_ex` | as C112; a file with two sensors and two states of Python's generator refute the claim on the seed |
| C114 | `exp_decay_1D` with `np.arange` (a ceiling), the uniform stream and the attribute setters | exact result (`IsDecay`), then monotonicity of `exp` term by term through C53 (closest) and C54/C74 (wme); `time_range=[1, 4]` refutes the claim on the times |
| C115 | `exp_decay_2D` (argument binding of the inner function), `identity_1D_temporal_prob` (data set, `load`) | case analysis over every step: no path returns; for proper inputs the exception is determined |
| C116 | `adcirc_time_window`, `pca_vector_plot` over the models of `mud_problem`, `estimate`, `plot_ts`, the plots of densities and the residual figure | the mask is the list of the indices strictly inside (`inside`); independent description `WindowOf` of what is returned and drawn; the value of an estimate of a fresh problem |
| C117 | `adcirc_solve`, the values of the mesh figure, the loop over the windows and the names of saved files | induction over the windows with C116; the loader with C110; concrete data set for the refutations |
| C118 | `run_contours` and its six local functions over the models of `plot_fun_contours`, `plot_contours`, `plot_sol` and `solve` | one solved problem state (`solved`) that all later calls leave unchanged; independent description of the figures `sheets`/`FigureOf`; closed forms of the points for one observation |
| C119 | the boundary expressions of `fenics_poisson_solve` (text read by the parser of C70) against `plot_solution_spline` | factorisation of `12500/823543 - x^2 (1-x)^5` with a positive Bernstein form; C70 and C109 on each interval |
| C120 | `run_fenics`, `np.random.uniform` with lists of bounds, the disk; FEniCS is a parameter | `Generated` describes the data set entry by entry in terms of the draws; digits contain no underscore, so file names are injective |
| C121 | `run_fenics`, then `load_poisson_prob` and `run_2d_poisson_trials` on the file | C120 with C110 and C112 |
| C122 | the commands `poisson_solve`, `poisson_trials` and the seeding by the group, over the runs of C112 and C113; click passes tuples | C113 with no figure names; rows from the fitted problem of each trial; a sorted permutation is unique |
| C123 | `mud_paper` as the sequence of the modelled runs on one NumPy generator, one generator of Python's `random`, one disk and one server; figures by the numbers they show, files by name | the stages of a run that returns; the theorems of C105, C107, C108, C112, C113, C116, C118; existence of the density estimates from affine independence of the data; a concrete world |
| C124 | the command line as lists of tokens (integer, decimal, other), the conversions of click, the group's `--seed` and `--save-path`, the bodies as calls of the modelled examples; the JSON file as a list of items | the conversions by cases; the theorems of C92, C93, C105, C107, C108, C119, C120, C122 for the bodies; concrete command lines |
| C125 | the import of `plot.py`: settings, open figures and files as state, `plt.plot`, rendering and `unlink` as external functions that may raise anything, `try/except/finally`, pathlib's joining | frame lemmas for the files per step; the result by cases over the failures |
| C126 | `save_figure`; `PurePosixPath` parsing and joining and the extension that `savefig` appends, on lists of characters | splitting an intercalation; induction over the figures of a script; concrete names for the refutations |
| C127 | `plot_1D_vecs`: current figure and axes as state | induction over the vectors |
| C128 | the linear solutions; distributions are Mathlib's `multivariateGaussian` on `Fin d → ℝ` (`normalLaw`) | characteristic functions; an observable value and an independent initial sample are mapped to a parameter (`genMap`), whose law is the updated one; reweighting by `rnDeriv` |
| C129 | the same; densities `normalPdf` of `Spec` | equality a.e. from C128, everywhere by continuity; strict maximum of a normal density |
| C130 | the same, `map_sol_with_cov` | completion of the square; Woodbury; the integral of the normal density |
| C131 | `add_noise` + `wme` on a generator whose state is random (`Iid`, `White`: law of the draws as hypothesis) | the value is an affine function of the draws; characteristic functions; Mathlib's central limit theorem |
| C132 | `DensityProblem` built from the first n terms of a sequence of random samples (`sampledProblem`); `Dist.Evaluates`: `pdf` returns the values of a given density | C34, change of variables, Mathlib's strong law of large numbers |
| C133 | `LinearWMEProblem` on noisy data | the MUD point is affine in the mean noise; normal laws under affine maps; strong law |
| C134 | as C132, `mud_point` | C28: the estimate is the best sample; independent samples hit a neighbourhood of the peak |
| C135 | as C134 with scipy's `norm(loc, scale)` and `multivariate_normal` | C129, C134 |
| C136 | `BayesProblem` built from random samples (`sampledBayes`) | C40, C130, as C134 |
| C137 | `wmeFl`: `wme` with every operation rounded (`Arith.Standard`) and the sum taken in any order (`FlSum`) | multiplicative error factors (`Near`), induction over the bracketing of the sum |
| C138 | `DP.fitFl`, `DP.mudPointFl` | three rounded operations per sample; argmax of perturbed values |
| C139 | `DP.expectedRatioFl`, `npAverageFl` | sums of nonnegative numbers have small relative error |
| C140 | `BP.fitFl`, `BP.mapPointFl` | as C138; a rounded sum of nonnegative numbers vanishes iff all do |
| C141 | `Computes`: chains of `mud_sol` updates with an error each | updates do not increase distances; one pass over all rows contracts (C16) |
| C142 | `Api.solve` and `updated_cov` along families of problems | closed forms; the Moore–Penrose inverse is continuous at full rank; linear maps are Lipschitz |
| C143 | `sampledNew`, `DP.setPredicted (scipyEnv user)` | strong law for characteristic functions, Lévy continuity, bandwidth tends to 0 |
| C144 | `sampledNew`, `DP.setPredicted (scipyEnv user)` | Bernstein inequality on a grid of points, Borel-Cantelli; the data-dependent kernel lies between two kernels of fixed shape; smoothing of a bounded density |
| C145 | `sampledDefault` (constructor, `setInitial`, `setObserved`), `DP.mudPoint (scipyEnv user)` | C144, argmax of a uniform limit; smoothing of the uniform density at the ends of the interval, Borel-Cantelli for the sample next to the end |
| C146 | `sampledDefault`, `DP.expectedRatio (scipyEnv user)` | C144 (uniform consistency on compact sets), ratios converge uniformly, strong law; near the ends of the interval a bound on the ratios and small probability |
| C147 | `DP.fit`, `sampledDefault`, `sampledProblem` | as C146 with a test quantity; push-forward of the updated measure by change of density |
| C148 | `wme`, `DP.mudPoint (scipyEnv user)`, `WmeTable` | kernel estimate commutes with affine changes of the outputs, continuity of the estimate in the data, exponential beats bounded factors; strong law |
| C149 | `DP.expectedRatio (scipyEnv user)` | as C148; powers times exponential to zero |
| C150 | `Funs.mapProblem`, `BP.mapPoint` | C67, likelihood as a function of the sum of squares, argmax |
| C151 | `Funs.mudProblem`, `Funs.mapProblem`, `Survey` | C148, C150; oscillating predictions as witness |
| C152 | `DPD.plotParamSpaceKw`, `DPD.plotObsSpaceKw`, `BPD.*Kw`, `Dict` | simulation: the figure with keywords is that of C92, C93, C94, C95 mapped by role; dictionary update lemma |
| C153 | `STP.plotTsKw` | the figure of C98 mapped by position; concrete problem as witness |
| C154 | `LGP.plotSolKw` on a heap of dictionaries | step-wise; induction over calls |
| C155 | `contoursKw` | induction over the contours of C118/C124 |
| C156 | `DPD.run` on all `DOp` | case analysis of every exit; `guarded` steps for `fit`; projection to the core for later calls |
| C157 | `BP`, `BPD` on all `BOp` | relation "default prior already set" is a bisimulation; induction over later calls |
| C158 | `STP.setAttr`, `STP.measurementsFromReference` | combinators for raising without effect |
| C159 | `STP.loadDs` | induction over the list of assignments |
| C160 | `STP.loadDs` | symbolic run with the exact behaviour of the domain setter (C51) |
| C161 | `Api.mapCov`, `Api.mudCov`, `useBatches` | induction over the batches, completing the square; block matrices; for MUD, the first batch is still reproduced iff the gain of the second is invisible to it |
| C162 | `LGP.solve`, `LWP.new`, `transformLinearMap`, `wme` | inverse and Moore-Penrose inverse commute with reindexing; induction over the calls |
| C163 | `LGP.solve`, `updated_cov`, `iterate`, `mud_sol_with_cov`, `map_sol_with_cov` | `A S Qᵀ = 0` is zero covariance under Mathlib's Gaussian measure; it is preserved by every step; induction over rows, epochs and batches |
| C164 | `LGP.solve`, `updated_cov` | variances under Mathlib's Gaussian measure; `U = S - K (P - C) Kᵀ`, `U - V = K C (P + C)⁻¹ C Kᵀ`, `C - A V Aᵀ = C (P + C)⁻¹ C` |
| C165 | `wme`, `transformLinearMap`, `LWP.new`, `LGP.solve`, `updated_cov` | the maps differ by an isometry of the output space; each branch of `solve` is invariant under isometries; then as C162 |
| C166 | `LGP.new`, `LGP.solve`, `LGP.attr` | one call writes exactly the results it computes, since `solve` never changes the problem (C11); induction over the history from its end |
| C167 | `LGP.solve`, `updated_cov` | the error of MAP is an affine function of parameters and noise, uncorrelated with the data, hence (joint normality) independent of them; completing the square. The error of MUD: the Joseph form of the updated covariance |
| C168 | `LGP.solve`, `updated_cov` | the covariance of an affine estimate with any gain is monotone in the two covariances; the MAP gain minimises it (C167), and a gain for the combined data is a gain for the data. MUD: its gain depends only on map and initial covariance; counterexample with `A = I`, noise correlation `-9/11` |
| C169 | `LGP.solve`, `updated_cov` | the error is an affine function of parameters and noise, its covariance in Joseph form is the reported one; for MAP it is uncorrelated with the data and jointly normal with them, hence independent |
| C170 | `performEpoch`, `iterate` | an epoch is an affine map; its linear part contracts the range of `S A'ᵀ` (`A'`: visited rows), every update moves inside that range, so the map has a fixed point there and two passes never separate; one parameter measured twice refutes (b) and (c) |
| C171 | `performEpoch`, `iterate` | each update commutes with the change of units; induction on rows and epochs |
| C172 | `LGP.solve`, `updated_cov` | the error is normal with the reported covariance (C169), which is `B Bᵀ` with invertible `B`, so `B⁻¹` times the error is standard normal; the minimal misfit is `rᵀ (A αS Aᵀ + C)⁻¹ r` for the residual `r` of the initial mean |
| C173 | `LGP.solve` | by Pythagoras the MAP point is that for the prediction of a best fit, which is attainable, so C85 applies; counterexample: `A = [1 1]ᵀ`, `y = (0, 2)`, noise variances 1 and 4 |
| C174 | `STP.mudProblem`, `STP.sampleData` | both sides reduce to `DP.new` on the same table of residuals (`mudProblem_masked`, `mudProblem_whole`) |
| C175 | `LGP.solve` | a point on the segment from the initial mean to MUD has a smaller objective than both ends; nearest points of an affine set are characterised by orthogonality |
| C176 | `STP.mudProblem`, `closestToMeasurements` | both problems have the same table of residuals; all distances to the measurements are multiplied by the same positive number |
| C177 | `wme`, `transformLinearMap`, `LWP.new` | closed forms of C21 and C23; counterexample: one measurement with deviation 1, in a unit 1e14 times larger |
| C178 | `DP.expectedRatio`, `DP.mudPoint` | weighted means of C34 regrouped; counterexample by C28 |

## 5. Disagreements between code and documentation found

Each is a proved statement about the model (`_refuted` theorem or the exact behaviour).

| where | what the code does |
|-------|--------------------|
| base.py compute_functionals | subtracts `b` twice in the data term, ignores `alpha`, broadcasts `mean_o.T` (several observations raise) — C15, C77 |
| base.py IterativeLinearProblem.solve, funs.iter_lin_solve | passes unknown keywords: `TypeError` for every non-empty index order — C20 |
| base.py IterativeLinearProblem.get_errors, plot_chain | errors cached by length (stale for another reference), 1-D reference broadcast; `plot_chain` passes unknown keywords — C96, C97 |
| funs.wme | (n,1) data are broadcast or rejected — C22 |
| base.py DensityProblem | estimates stale after `set_observed` (C29); `pad_domain` ignored (C38); plotting pads the domain in place (C37); 1-D `X` is one sample (C39) |
| base.py BayesProblem | stale estimates (C41); log-likelihood mode differs in degenerate cases (C42, C43) |
| norm.full_functional | default observed mean raises AttributeError (C46); 1-D data (C73) |
| base.py SpatioTemporalProblem | sensor mask drops rows' shape (C49), domain/lam compatibility (C51), unequal observation counts in WME (C54), unknown QoI raise UnboundLocalError (C55), data_weights (C56), validate (C59), netCDF loading NameError (C72) |
| base.py plot_ts, sensor_contour_plot | random choice ignored (first samples drawn), raises for one-coordinate sensors (C98); selection not applied to the data (C99) |
| funs.data_prob | default `sample_dist` is rejected: every call raises (C58); funs.mud_problem accepts negative split indices (C67) |
| util.rank_decomposition | wrong vectors and missing term; IndexError for wide matrices — C61 |
| preprocessing.svd | documented keyword arguments ignored — C101 |
| util.add_noise | column signals (C66) |
| plot.plot_dist, base.plot_params_2d, plot_contours | wrong coordinates (C64, C69), wrong segment (C68) |
| examples/linear.py | `rotation_map` ignores the value of `seed` and uses a standard deviation as covariance; `rotation_map_trials` always raises — C88; `noisy_linear_data` with a column of deviations — C87 |
| base.py DensityProblem/BayesProblem plots | update or push-forward drawn unweighted before the first fit, with the old ratio after `set_observed` (C92, C93, C95); log posterior used as weights (C94) |
| examples/linear.py random_linear_wme_problem | one deviation for several quantities raises AssertionError, an integer deviation always raises — C104 |
| examples/linear.py `run_high_dim_linear` | IndexError unless dim_input = dim_output; returns (dim_errs, rank_errs), documented the other way round; rank operators are not truncations — C107 |
| examples/comparison.py | `domain` is not used for sampling (always uniform on [0, 1]); a domain disjoint from [0, 1] raises ValueError — C108 |
| examples/poisson.py, adcirc.py | `load_poisson_prob`, `load_adcirc_prob` ignore `std_dev` (0.05 is used); they raise on a data set storing a field they pass by value — C110 |
| examples/poisson.py `run_2d_poisson_sol` | the seed is not passed to `random.seed` (the trials do), so `order="random"` is not reproducible; the default group `[50, -1]` never shows the last sensor of the order when there are more than 50; the result shares the problem whose domain the plots overwrite — C113 |
| examples/exp_decay.py `exp_decay_1D` | `time_range[0]` is never read: times start at `t_start` even before it — C114 |
| examples/exp_decay.py `exp_decay_2D` | the inner `u_t_lambda_2(t, l1, l2)` is called with two arguments: `TypeError` for every proper input, no input returns — C115 |
| examples/simple.py `identity_1D_temporal_prob` | loads `sample_dist="uniform"`, which the setter rejects: `ValueError` always — C115 |
| examples/adcirc.py `adcirc_solve` | the name of the third saved figure is not an f-string: all windows write `qoi_{num_components}_{ndata}` and all but the last are lost; `tri_mesh_plot` ignores the requested value; more than three windows: `IndexError`; `sigma` has no effect — C117 |
| examples/linear.py `run_contours` | with `x0 + 2 x1 = 1` the solution contour drawn is not the solution set (it is for the default problem); more than one observation: `ValueError` — C118 |
| examples/fenics.py `piecewise_eval_from_vector` | the boundary condition solved for a sample goes to 1 at the end of the boundary, the one drawn and measured to 0 — C119 |
| examples/examples.py `poisson_solve` | the tuple given by click is wrapped in a list by `run_2d_poisson_sol`: no figure is ever drawn — C122 |
| examples/examples.py `mud_paper` | with FEniCS and no data file it always fails with `FileNotFoundError` (the generated data are saved as `./s1000_n500_d2_res`); figure 5 overwrites the comparison of figure 3; figure 7 is not reproducible with `--seed`; the trials go to the save path, not to `figures` — C123 |
| examples/examples.py `comparison`, `contours`, `high_dim_linear`, `poisson_generate` | `-d` of `comparison` takes integers only (its default is `[0, 1]`), so `-d 0.5` is a usage error; `high_dim_linear` passes the group's seed, so without `--seed` the default 21 is not used; `cov_o` as a one-dimensional array in the JSON file of `contours` raises `IndexError`; `poisson_generate` declares `--ylim1` twice and has no `--xlim1` — C124 |
| plot.py import | `_check_latex` closes all open figures and deletes a file `.test_fig.png` of the user — C125 |
| plot.py `save_figure` | an absolute name ignores `save_path`; `a` and `a.png` are one file — C126 |
| plot.py `plot_1D_vecs` | draws on the current axes instead of `ax` — C127 |
| base.py DensityProblem, default `set_predicted` | the kernel estimate has no boundary correction: it halves the predicted density at the ends of the outputs' range, so the MUD point of uniform samples is drawn to the boundary (norm(0.75, 0.3) observed: limit 1 instead of 0.75) — C145 |
| base.py `DensityProblem.plot_obs_space`, `plot_param_space` | `if ob_opts:`: an empty dictionary suppresses the curve (and `true_opts={}` the line); documented defaults are not the ones used — C152 |
| base.py `plot_ts` | `samples_kwargs` are ignored for the last series — C153 |
| base.py `plot_sol` | overwrites `label` in the caller's `pt_opts` — C154 |
| base.py `LinearGaussianProblem.plot_contours` | the default `plot_opts` contain `fs`, not a property of a line: `AttributeError` — C155 |
| base.py `DensityProblem.estimate`, `fit` | a failing call sets the default initial distribution, which changes what a later `set_predicted` does — C156 |
| base.py `DensityProblem.mud_point` | the weight is a factor of the maximised value, so replacing equal samples by one sample with the summed weight can change the MUD point — C178 |
| base.py `BayesProblem.set_likelihood` | a failing call has already switched the log flag — C41, C157 |
| base.py `SpatioTemporalProblem.data` | a rejected 0-dimensional array sets `sensors` — C158 |
| base.py `SpatioTemporalProblem.load` | a failing load leaves part of the data set assigned; loading a data set twice can fail — C159, C160 |
| funs.py `mud_sol_with_cov` | data used in batches give another point than all data at once, unless the predictions of the batches are uncorrelated — C161 (`map_sol_with_cov` has no such dependence) |
| base.py `LinearGaussianProblem.updated_cov` | leaving out an observation can give a smaller updated variance, even when every observation is more precise than its prediction — C168 |
| funs.py `iterate` | on data that contradict each other the result is the point that fits the row visited last, so it depends on the order of the rows and is not the MUD (least squares) point — C170 |
| base.py `LinearGaussianProblem.solve` | for data that no parameters reproduce, MUD ignores the precision of the observations: it is not the limit of MAP for small noise or large `alpha` (the weighted least squares point) — C173 |
| util.py `transform_linear_map` | the bound on the standard deviations, 1e-14, is absolute: whether a problem is accepted depends on the unit of the observations — C177 |
| examples/simple.py | simulated noise has deviation `sigma**2`, documented `sigma` — C89 |

## 6. Mutation testing

Realistic bugs are planted in a scratch copy of the model; each experiment is one line of `seeded/LOG.jsonl`
(definition, exact old and new text, claim it breaks, theorems that then fail, theorems tightened).
`seeded/tools/` has the scripts: every module depending on the edited one is re-elaborated with errors admitted, and a theorem counts as
failed if it or something it uses no longer checks (so a failing lemma is traced to all property theorems above it).
