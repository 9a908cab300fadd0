#!/usr/bin/env python3
"""Writes properties.jsonl (the property list is kept here as plain data)."""
import json, os
B="src/mud/base.py"; F="src/mud/funs.py"; U="src/mud/util.py"; N="src/mud/norm.py"; P="src/mud/plot.py"
props=[]
def p(title, statement, quantifier, why, *anchors):
    props.append(dict(id="C%02d"%(len(props)+1), title=title, statement=statement,
        quantifier=quantifier, why_tests_cant=why, anchors=list(anchors)))

# ---- linear Gaussian problems
p("MUD point reproduces the data",
  "LinearGaussianProblem(A,b,y,mean_i,cov_i).solve('mud') returns a point x with A x + b = y whenever the data are attainable; in particular whenever A has full row rank and cov_i is positive definite. When they are not attainable, A x + b is the point of the attainable set closest to y in the Euclidean norm.",
  "all dimensions, all A, b, y, mean_i, all symmetric positive semidefinite cov_i, all alpha > 0, all cov_o",
  "the unit tests solve random 2x2 systems; the claim is about every size, rank and covariance",
  B+":LinearGaussianProblem.solve", F+":mud_sol")
p("MUD point is the nearest data-consistent point to the initial mean",
  "Among all x with A x + b = y the MUD point is the unique minimiser of (x-mean_i)^T cov_i^-1 (x-mean_i): the estimate differs from the initial mean only in data-informed directions.",
  "all dimensions, all A, b, y with an exact solution, all positive definite cov_i, all competitors x",
  "a minimum over infinitely many competitors cannot be sampled",
  B+":LinearGaussianProblem.solve")
p("MUD point ignores the regularisation weight and the data covariance",
  "The MUD point is the same for every alpha > 0 and for every cov_o (unlike the MAP point).",
  "all problems, all alpha > 0, all cov_o",
  "tests only use alpha = 1 and cov_o = I",
  B+":LinearGaussianProblem.solve")
p("The two MUD formulas agree",
  "solve('mud') and solve('mud_alt') (and mud_sol / mud_sol_with_cov) return the same point whenever A cov_i A^T and cov_o are invertible; without that they may differ.",
  "all problems with invertible predicted and observed covariance",
  "the test compares the two on one random square system",
  B+":LinearGaussianProblem.solve", F+":mud_sol_with_cov")
p("Push-forward of the updated covariance is the data covariance",
  "A @ updated_cov(A, init_cov, data_cov) @ A^T = data_cov when the predicted covariance is invertible: the updated Gaussian is data-consistent.",
  "all dimensions, all A, symmetric init_cov with invertible A init_cov A^T, all data_cov",
  "tests check a handful of identity-like matrices",
  F+":updated_cov", B+":LinearGaussianProblem.updated_cov")
p("Updated covariance is a covariance",
  "updated_cov returns a symmetric positive semidefinite matrix whenever init_cov and data_cov are, for any A (also rank deficient).",
  "all dimensions, all A, all positive semidefinite init_cov and data_cov",
  "definiteness is a statement over all directions and all inputs",
  F+":updated_cov", B+":LinearGaussianProblem.updated_cov")
p("Updated covariance equals the documented closed form",
  "updated_cov equals inv(A^T (inv(data_cov) - inv(A init_cov A^T)) A + inv(init_cov)) whenever the inverses in that formula exist.",
  "all A, positive definite init_cov and data_cov with A of full row rank",
  "an algebraic identity (Hua/Woodbury) over all matrices",
  F+":updated_cov", B+":LinearGaussianProblem.updated_cov")
p("MAP point minimises the regularised misfit",
  "solve('map') is the unique minimiser over all x of (Ax+b-y)^T cov_o^-1 (Ax+b-y) + (x-mean_i)^T (alpha cov_i)^-1 (x-mean_i).",
  "all dimensions, all A, b, y, mean_i, positive definite cov_i, cov_o, alpha > 0, all competitors x",
  "global optimality over a continuum",
  B+":LinearGaussianProblem.solve", F+":map_sol")
p("Posterior covariance shrinks the prior",
  "The covariance returned with the MAP point is symmetric positive definite, equals alpha*cov_i - alpha*cov_i A^T (A alpha cov_i A^T + cov_o)^-1 A alpha*cov_i, and never exceeds alpha*cov_i in the positive semidefinite order.",
  "all dimensions, all positive definite cov_i, cov_o, alpha > 0",
  "order between matrices quantifies over every direction",
  B+":LinearGaussianProblem.solve", F+":map_sol_with_cov")
p("Least-squares solution is optimal and of minimum norm",
  "solve('ls') minimises |A x - (y-b)| over all x and has the smallest norm among the minimisers.",
  "all dimensions, ranks, A, b, y, all competitors x",
  "global optimality over a continuum, all ranks",
  B+":LinearGaussianProblem.solve")
p("Solving does not change the problem",
  "solve(method) leaves A, b, y, mean_i, cov_i, cov_o, alpha untouched, so after any sequence of solve calls (any methods, any output_dim, also failing ones) a further solve returns what it would have returned on the fresh problem; solve('all') returns exactly the ('mud','map','ls') solutions.",
  "all problems and all finite histories of solve calls",
  "histories are unbounded",
  B+":LinearGaussianProblem.solve")
p("output_dim solves the leading sub-problem",
  "solve(method, output_dim=k) returns what solve(method) returns on the problem made of the first k rows of A, b, y and leading k-by-k block of cov_o.",
  "all problems, all methods, all k",
  "tests never pass output_dim",
  B+":LinearGaussianProblem.solve")
p("Constructor defaults and validation",
  "Omitted b, y, mean_i are zero, omitted cov_i, cov_o are identities, a 1-D A is one row; construction fails with ValueError exactly when y does not have one entry per row of A.",
  "all inputs of one or two dimensions",
  "tests only construct well-shaped problems",
  B+":LinearGaussianProblem.__init__")
p("Estimates are equivariant under change of units",
  "Re-expressing parameters through any invertible T (A T^-1, T mean_i, T cov_i T^T) maps the MUD and MAP points by T; adding the same offset to b and y changes nothing; re-scaling the observations by any invertible D (D A, D b, D y) leaves the MUD point unchanged when A cov_i A^T is invertible.",
  "all problems, all invertible T, D, all offsets",
  "quantifies over all linear re-parameterisations",
  B+":LinearGaussianProblem.solve")
p("compute_functionals is consistent with the solver",
  "The functional terms are non-negative, 'bayes' = 'data' + 'reg', 'dc' = 'bayes' - 'dc_term' >= 0, and the MAP / MUD points minimise 'bayes' / 'dc'.",
  "all problems, all evaluation points",
  "tests never evaluate the functionals of the class",
  B+":LinearGaussianProblem.compute_functionals")
p("An epoch visits each row and satisfies it",
  "performEpoch returns a chain that starts at the initial mean, has one further entry per visited index, and entry k+1 satisfies equation idx[k] exactly (when that row is not annihilated by the covariance).",
  "all A, b, y, means, covariances, all index sequences",
  "sequences of any length and order",
  F+":performEpoch")
p("Epoch chaining",
  "iterate(num_epochs=n) returns the concatenation of max(n,1) epochs, each starting where the previous one ended; its length is max(n,1)*(len(idx)+1).",
  "all epoch counts and index sequences",
  "unbounded number of epochs",
  F+":iterate")
p("Iteration never moves away from a solution",
  "For every exact solution x* of A x + b = y the distance (x_k - x*)^T cov^-1 (x_k - x*) is non-increasing along the whole chain of iterate, and a chain started at a solution stays there.",
  "all consistent systems, index sequences, epoch counts, solutions x*",
  "a monotonicity claim over unbounded iterations",
  F+":iterate", F+":performEpoch")
p("Iteration converges to the joint MUD point",
  "As num_epochs grows the last point of iterate tends to mud_sol(A,b,y,mean,cov), the MUD point of the whole system, for every consistent system in which every row is visited.",
  "all consistent systems with positive definite covariance, all index orders covering all rows",
  "a limit statement",
  F+":iterate", F+":mud_sol")
p("IterativeLinearProblem.solve / iter_lin_solve solve the problem",
  "IterativeLinearProblem(...).solve(num_epochs) and iter_lin_solve(...) return the last point of the chain of row-by-row MUD solutions.",
  "all problems, epoch counts, index orders",
  "no test calls them",
  B+":IterativeLinearProblem.solve", F+":iter_lin_solve")
# ---- WME
p("Weighted mean error functional",
  "wme(predictions, data, sd)[i] = (1/(sd sqrt N)) * sum_j (predictions[i,j]-data[j]); it is 0 when the predictions equal the data, affine in the predictions, independent of the order of the observations, and uses the population standard deviation of the data when sd is omitted.",
  "all sample counts, feature counts, predictions, data, sd != 0",
  "tests use constant residuals only",
  F+":wme")
p("wme rejects mismatched dimensions",
  "wme raises ValueError exactly when the number of prediction columns differs from len(data); a 1-D prediction is a single sample; data of the documented shape (n_features, 1) is handled like 1-D data.",
  "all shapes",
  "tests use matching 1-D data only (a TODO in the tests says so)",
  F+":wme")
p("transform_linear_map yields the WME map",
  "For the returned (A, b) and every x: A x + b = (1/sqrt N) * sum_i (M_i x - d_i)/std_i; it vanishes at any x that reproduces the data.",
  "all operators, data, admissible std, all x",
  "doctests evaluate one x on one matrix",
  U+":transform_linear_map", B+":LinearWMEProblem._transform_linear_map")
p("Repeated observations are the stacked problem",
  "A one-row operator with N data gives the same (A, b) as the operator with that row stacked N times.",
  "all rows, all N >= 2, all data, std > 1e-14",
  "tested on one example",
  U+":transform_linear_map")
p("transform_linear_map input validation",
  "It rejects a row/data count mismatch, a std of the wrong length, a std that rounds to 0 at 14 decimals, a vector std for repeated observations and std <= 1e-14 for repeated observations, and accepts everything else of the right type.",
  "all shapes and std values",
  "boundary values are not tested",
  U+":transform_linear_map", B+":LinearWMEProblem._transform_linear_map")
p("Linear WME problem: MUD point zeroes every weighted mean error",
  "LinearWMEProblem(operators, data, sigma).solve('mud') returns x with sum_i (M^k_i x - d^k_i)/sigma^k_i = 0 for each QoI k when the stacked map has full row rank; for repeated measurements this says M^k x is the sample mean of the data.",
  "all numbers of QoI, operators, data, sigmas, covariances",
  "tests only look at .y",
  B+":LinearWMEProblem.__init__", U+":transform_linear_setup")
p("Updated variance of a repeatedly measured quantity is sigma^2/N",
  "For one repeatedly measured row M with N data of standard deviation sigma, M updated_cov M^T = sigma^2/N (cov_o default): more data, less variance.",
  "all rows M, covariances with M cov M^T > 0, N >= 1, sigma > 1e-14",
  "shown graphically for four N in an example",
  B+":LinearWMEProblem", B+":LinearGaussianProblem.updated_cov")
# ---- Density
p("MUD point is a sample of maximal updated density",
  "DensityProblem.mud_point()/estimate() returns X[m] for the first index m at which initial(X_m) * weight_m * observed(y_m)/predicted(y_m) is maximal.",
  "all samples, weights, densities, all reachable states",
  "tests only round one estimate to one decimal",
  B+":DensityProblem.mud_point", B+":DensityProblem.fit")
p("Estimates always reflect the current settings",
  "After any history of set_weights / set_observed / set_initial / set_predicted / fit / estimate calls the next estimate is the one for the current weights and distributions.",
  "all finite histories of API calls",
  "cache invalidation is a property of histories",
  B+":DensityProblem")
p("Only relative weights matter",
  "Multiplying all sample weights by the same positive constant changes neither the MUD point nor expected_ratio.",
  "all problems, all constants > 0",
  "quantifies over all weights and constants",
  B+":DensityProblem.set_weights", B+":DensityProblem.expected_ratio")
p("Stacked weights combine by multiplication",
  "A 2-D weights array acts like the 1-D array of column products, independently of the order of its rows; unit weights act like no weights; normalize=True scales the combined weights to Euclidean norm 1; a wrong number of columns is rejected.",
  "all numbers of rows and samples, all weights",
  "tests use a single row of ones",
  B+":DensityProblem.set_weights")
p("Zero-weight samples are never selected",
  "If the predicted density is not 0 at any sample (it never is with the default estimate), a sample with weight 0 is not returned as the MUD point as long as some sample has a positive updated density. Where the predicted density is 0 the quotient is nan and the guarantee is lost.",
  "all problems with finite densities and non-zero predicted density at every sample (0 * inf = nan would win the argmax)",
  "quantifies over all configurations",
  B+":DensityProblem.mud_point")
p("Sample order is irrelevant",
  "Permuting the samples (rows of X and y together with the weights) does not change the MUD point when the maximiser is unique, nor expected_ratio.",
  "all permutations of all sample sets",
  "factorially many orders",
  B+":DensityProblem.mud_point", B+":DensityProblem.expected_ratio")
p("expected_ratio is the weighted mean of observed/predicted",
  "expected_ratio() = sum(w r)/sum(w), lies between the smallest and the largest ratio for non-negative weights, and is 1 when observed and predicted densities coincide on the samples; it fails when the weights sum to 0.",
  "all problems, weights with non-zero sum",
  "tests check one number to 20 percent",
  B+":DensityProblem.expected_ratio")
p("Default initial: MUD point inside the domain",
  "With the default (uniform) initial distribution the MUD point lies in the domain whenever the predicted density is not 0 at any sample and some sample has positive updated density.",
  "all samples, domains, finite observed and finite non-zero predicted densities",
  "all inputs",
  B+":DensityProblem.set_initial", B+":DensityProblem.mud_point")
p("fit_domain bounds the samples",
  "fit_domain(x, pad_ratio) returns [min - pad_ratio*range, max + pad_ratio*range] per column (pad_ratio >= 0), so it contains every sample; for integer arrays the bounds are truncated toward zero and still contain every sample.",
  "all arrays, all pad ratios >= 0",
  "doctests show two arrays",
  U+":fit_domain", B+":DensityProblem.__init__")
p("Plotting does not change the problem",
  "plot_param_space() leaves the domain (and therefore later default initial distributions and estimates) unchanged.",
  "all problems, all numbers of plot calls",
  "aliasing across calls",
  B+":DensityProblem.plot_param_space", U+":fit_domain")
p("pad_domain controls the fitted domain",
  "When no domain is given DensityProblem(X, y, pad_domain=r) uses the sample bounding box padded by the ratio r.",
  "all X, all r",
  "never tested",
  B+":DensityProblem.__init__")
p("One-dimensional X means samples of one parameter",
  "A 1-D X of length n passed to DensityProblem or BayesProblem is treated as n samples of a single parameter.",
  "all 1-D inputs",
  "tests pass 2-D arrays",
  B+":DensityProblem.__init__", U+":set_shape")
# ---- Bayes
p("MAP sample maximises the posterior",
  "BayesProblem.map_point()/estimate() returns X[m] for the first index maximising prior * likelihood (or log prior + log likelihood in log mode), unless these values sum to 0, in which case it raises.",
  "all samples, densities, reachable states",
  "tests round one estimate",
  B+":BayesProblem.map_point", B+":BayesProblem.fit")
p("Bayes estimates always reflect the current settings",
  "After any history of set_prior / set_likelihood / fit / estimate calls the next estimate is the one for the current prior and likelihood.",
  "all finite histories",
  "cache invalidation is a property of histories",
  B+":BayesProblem")
p("Log and plain likelihood give the same MAP point",
  "set_likelihood(d, log=True) and set_likelihood(d) lead to the same map_point.",
  "all samples and densities",
  "monotonicity over all inputs",
  B+":BayesProblem.set_likelihood", B+":BayesProblem.fit")
p("Degenerate posterior is reported",
  "fit raises ValueError instead of returning an arbitrary sample when the posterior vanishes at all samples, and only then.",
  "all samples and densities, both log modes",
  "boundary case over all inputs",
  B+":BayesProblem.fit")
# ---- norm
p("Inner-product norm",
  "inner_product(X, C) returns, per column, x^T C^-1 x: non-negative, 0 exactly for the zero column, and raises for singular C.",
  "all dimensions, positive definite C, all X",
  "tests use scaled identities",
  N+":inner_product")
p("Full functional is a non-negative data-consistent objective",
  "full_functional = norm_input + norm_data - norm_predicted is non-negative for positive definite covariances and full-row-rank operators, vanishes exactly at the MUD point (so at the initial mean when that reproduces the data), and a scalar covariance c means c*I.",
  "all full-row-rank operators, inputs, means, positive definite covariances; data of shape (d,1) and observed mean of shape (1,d), for one observation also 1-D (1-D arrays with several observations are C73)",
  "tests evaluate random 2-to-1 maps",
  N+":full_functional", N+":norm_input", N+":norm_data", N+":norm_predicted")
p("full_functional default observed mean",
  "full_functional may be called without observed_mean (default 0).",
  "all inputs",
  "tests always pass it",
  N+":full_functional", N+":norm_data")
# ---- SpatioTemporal
p("sample_data without masks is the identity",
  "sample_data() returns the stored parameters, times, sensors, data and the flattened measurements unchanged.",
  "all consistent problems with non-empty data axes",
  "all sizes",
  B+":SpatioTemporalProblem.sample_data")
p("sample_data masks select exactly the requested entries",
  "With sample, time and sensor selections, entry (i, s*T+t) of the returned data is data[samples[i], sensors[s]*n_ts + times[t]], and measurements are selected in the same order, so data columns and measurements stay aligned.",
  "all sizes, all non-empty selections given as index lists or boolean masks",
  "index arithmetic over all sizes and masks",
  B+":SpatioTemporalProblem.sample_data")
p("Selecting sensors keeps one row per sample",
  "sample_data(sensors_mask=...) returns one data row per selected sample.",
  "all sensor layouts, all selections",
  "tests use 2-D sensor coordinates only",
  B+":SpatioTemporalProblem.sample_data")
p("Data setter validates and completes the layout",
  "Assigning data of shape (n, k), (n,) or (n, s, t) stores an (n, k) array whose column count equals n_sensors*n_ts (3-D data flattened with time fastest), fills in missing sensors/times, and raises ValueError exactly on a mismatch.",
  "all shapes (at least one sample for 3-D data), all prior sensors/times settings",
  "case analysis over all shapes",
  B+":SpatioTemporalProblem.data")
p("Domain and parameter samples stay compatible",
  "After any sequence of successful assignments to domain and lam, the domain has one row per parameter column and contains every sample.",
  "all sequences of assignments",
  "histories of setters",
  B+":SpatioTemporalProblem.domain", B+":SpatioTemporalProblem.lam")
p("lam_ref lies in the domain",
  "Assigning lam_ref succeeds only if a domain is set and every component lies in its range; a failing assignment leaves the old value.",
  "all values and domains",
  "all inputs",
  B+":SpatioTemporalProblem.lam_ref")
p("Closest sample",
  "get_closest_to_measurements (get_closest_to_true_vals) returns the parameters of the first sample whose data are nearest in Euclidean norm to the measurements (true values).",
  "all data sets and masks",
  "minimum over all samples, all inputs",
  B+":SpatioTemporalProblem.get_closest_to_measurements", B+":SpatioTemporalProblem.get_closest_to_true_vals")
p("WME map of a spatio-temporal problem",
  "mud_problem(method='wme') uses the weighted mean error of the residuals, i.e. (up to sign) wme(data, measurements, std_dev).",
  "all problems",
  "tests never use method='wme'",
  B+":SpatioTemporalProblem.mud_problem", F+":wme")
p("Unknown QoI maps are rejected with ValueError",
  "mud_problem(method=m) raises ValueError for every m other than 'wme', 'pca', 'svd'.",
  "all method names",
  "never tested",
  B+":SpatioTemporalProblem.mud_problem")
p("data_weights weight the observations",
  "mud_problem(data_weights=w) multiplies the residual of observation j by w_j/|w|.",
  "all problems and weights of the data dimension",
  "never tested",
  B+":SpatioTemporalProblem.mud_problem")
p("load reads each field from its mapped key",
  "load(ds, f=k) assigns attribute f from ds[k], skips fields that are absent, and uses non-string values directly.",
  "all dictionaries and keyword mappings",
  "all dictionaries",
  B+":SpatioTemporalProblem.load")
p("data_prob solves with its defaults",
  "data_prob(lam, qoi, ...) with default sample_dist returns a solved DensityProblem.",
  "all inputs",
  "no test calls it",
  F+":data_prob", B+":SpatioTemporalProblem.sample_dist")
p("validate reports missing attributes",
  "validate() raises ValueError naming exactly the required attributes that are unset and passes otherwise, for all four flag combinations.",
  "all states and flags",
  "never tested",
  B+":SpatioTemporalProblem.validate")
# ---- util / plot / examples
p("null_space",
  "null_space(A) returns orthonormal columns z with |A z| <= rcond*s_max each, spanning exactly the kernel of A when the discarded singular values are 0.",
  "all matrices and tolerances",
  "doctests use two matrices",
  U+":null_space")
p("rank_decomposition",
  "rank_decomposition(A)[k] is the rank-(k+1) truncation of A; the last entry is A.",
  "all matrices",
  "never tested",
  U+":rank_decomposition")
p("Unit mesh",
  "make_2d_unit_mesh(N, w) lists each of the N^2 grid points (c*w/(N-1), r*w/(N-1)) exactly once, row-major with the first coordinate fastest, all inside [0,w]^2.",
  "all N, w",
  "doctest shows N = 3",
  U+":make_2d_unit_mesh", P+":make_2d_unit_mesh")
p("n-d mesh grid",
  "build_nd_mesh_grid(domain, aff) lists (aff-1)^n points, all inside the half-open box of the domain, covering every combination of grid coordinates.",
  "all dimensions, domains, aff",
  "doctest shows n = 1",
  P+":build_nd_mesh_grid")
p("plot_dist plots the marginal of the requested variable",
  "plot_dist(dist, domain, idx=i) draws the marginal density of coordinate i.",
  "all dimensions, densities, indices",
  "tests plot 1-D problems",
  P+":plot_dist")
p("Equipment tolerance to standard deviation",
  "For sigma = std_from_equipment(tol, p), a centred normal with standard deviation sigma falls within tol with probability p.",
  "all tol > 0, p in (0,1)",
  "tests check an inequality for four tolerances",
  U+":std_from_equipment")
p("add_noise",
  "add_noise(signal, sd, seed) returns an array of the signal's shape, equal to signal + sd*standard normal draws; with a seed the result does not depend on earlier random calls.",
  "all signals, sd, seeds, generator states",
  "tested on one vector and seed",
  U+":add_noise")
p("mud_problem / map_problem observation count",
  "The functional wrappers use exactly the first num_obs observations (all by default), reject num_obs < 1 or > dim with ValueError, and a split that is one full index block gives the unsplit problem.",
  "all shapes, num_obs, splits into nonempty blocks of nonnegative indices",
  "no test calls them",
  F+":mud_problem", F+":map_problem")
p("Contour lines pass through the reference point",
  "plot_contours draws, for each row of A, a segment of the solution contour through the reference point.",
  "all rows, reference points, widths",
  "plots are not inspected by tests",
  B+":LinearGaussianProblem.plot_contours", P+":plot_contours")
p("plot_params_2d plots the requested coordinates",
  "plot_params_2d(x_1, x_2, y) scatters columns x_1 and x_2 of the samples coloured by column y, and rejects out-of-range indices.",
  "all problems and indices",
  "plots are not inspected by tests",
  B+":DensityProblem.plot_params_2d")
p("Piecewise-linear boundary expression",
  "The expression built by piecewise_eval_from_vector(u) evaluates to the piecewise-linear interpolant through the knots (0,0), (i/(n+1), u_i) for i=1..n, (1,1) on [0,1), and to 0 outside [0,1).",
  "all knot vectors and evaluation points",
  "only run through FEniCS",
  "src/mud/examples/fenics.py:piecewise_eval_from_vector")
p("print_res filtering",
  "print_res(res, fields, search, match) lists, in order, exactly the records whose search column matches, restricted to the requested fields.",
  "all record lists, fields and filters",
  "doctests show two records",
  "src/mud/examples/examples.py:print_res")
p("netCDF data sets are loaded with xarray",
  "load('file.nc') reads the file with xarray when xarray is installed and otherwise unpickles it; a missing file raises FileNotFoundError.",
  "all paths, both environments",
  "environment dependent",
  B+":SpatioTemporalProblem.load")
p("1-D data in the full functional",
  "full_functional accepts data and observed_mean as 1-D arrays of length d and returns one value per sample, 0 for a sample equal to an initial mean that reproduces the data.",
  "all numbers of observations",
  "tests use a single observation",
  N+":norm_data", N+":full_functional")
p("Synthetic measurements",
  "measurements_from_reference(ref, std_dev, seed) stores ref_j + std_dev*z_j as measurement j for the generator's next standard normal draws z (from the seeded state if a seed is given), remembers ref and std_dev and changes nothing else; without a reference or standard deviation it raises AttributeError and changes nothing.",
  "all problems with a layout, references of matching size and any shape, seeds, generator states",
  "random numbers; tests fix one seed",
  B+":SpatioTemporalProblem.measurements_from_reference", U+":add_noise")
p("Loading a complete data set gives a problem ready for inversion",
  "load(ds) on a fresh object with consistent domain, sensors, times, std_dev, measurements, lam and data stores exactly these arrays (domain as (p,2), measurements as a column) so that mud_problem can be called; measurements without a sensor/time layout cannot be loaded (AttributeError).",
  "all consistent data sets, all sizes",
  "tests load one file",
  B+":SpatioTemporalProblem.load", B+":SpatioTemporalProblem.mud_problem")
p("Learned QoI maps project the residuals",
  "mud_problem('svd'|'pca', num_components=c) returns a problem whose i-th sample's QoI consists of the projections of its scaled residual vector on the first c singular vectors (principal components); keeping all singular vectors preserves Euclidean lengths.",
  "all ready problems, all c, all decompositions",
  "tests only check shapes",
  B+":SpatioTemporalProblem.mud_problem", "src/mud/preprocessing.py:svd", "src/mud/preprocessing.py:pca")
p("Functional contour plots show the functional",
  "plot_fun_contours(terms, N, r) draws, over the N x N grid of [0,r]^2, the surface whose height at a grid point is the value compute_functionals returns for that point and term; asking for all terms at once or passing a mesh that does not have N^2 points fails.",
  "all two-parameter problems, all single terms, all N and r",
  "plots are not inspected by tests",
  B+":LinearGaussianProblem.plot_fun_contours", U+":make_2d_unit_mesh")
p("plot_sol marks the solution",
  "plot_sol(point) marks the first two coordinates of the solution solve(point) returns and draws the line to it from the initial mean (unless ln_opts=None); plot_sol('initial') marks the initial mean only.",
  "all problems with at least two parameters for which solve(point) succeeds",
  "plots are not inspected by tests",
  B+":LinearGaussianProblem.plot_sol")
p("Default predicted density is a positive probability density",
  "set_predicted() without a distribution, with either built-in bandwidth rule, stores at every sample the value there of one density on the output space that is everywhere positive and has total mass 1 (the weighted Gaussian kernel estimate scipy builds from the outputs and current weights); it returns exactly when there are at least two numbers, the weights have one sign, more than one sample has non-zero weight and the outputs are not confined to a hyperplane; the updated density is then well defined at every sample and mud_point maximises it.",
  "all output clouds of any dimension and size, all nonnegative weights, both bandwidth rules",
  "integral over the whole output space; arbitrary clouds",
  B+":DensityProblem.set_predicted", B+":DensityProblem.fit", B+":DensityProblem.mud_point")
p("Units of outputs and parameters do not matter",
  "Re-expressing outputs by an invertible affine change y -> T y + c and parameters in any other coordinates, with the distributions expressed in the new units, and running the same call history (with the default kernel predicted density) yields the same chosen sample and the same expected ratio.",
  "all sample clouds, invertible affine maps, weights",
  "all unit changes",
  B+":DensityProblem.set_predicted", B+":DensityProblem.fit", B+":DensityProblem.mud_point", B+":DensityProblem.expected_ratio")
p("A zero-weight sample is the same as leaving it out",
  "Adding a sample with weight 0 to a density problem (default kernel predicted density, observed and initial distributions given, some sample with positive updated density) changes neither the MUD point nor the expected ratio.",
  "all sample clouds, all positions of the extra sample, all weights",
  "all clouds and positions",
  B+":DensityProblem.set_weights", B+":DensityProblem.set_predicted", B+":DensityProblem.mud_point", B+":DensityProblem.expected_ratio")
L="src/mud/examples/linear.py"
p("More consistent outputs never hurt",
  "For data produced without noise by a reference parameter, solve('mud', output_dim=l) is at least as close to the reference (in the initial covariance's norm) as solve('mud', output_dim=k) for every k <= l, and equals it once the first l outputs determine the parameter; the same holds for 'ls' in the Euclidean norm.",
  "all linear problems with noiseless data and positive definite initial covariance, all k <= l",
  "all dimensions and operators",
  B+":LinearGaussianProblem.solve")
p("MUD and LS depend only on the set of data-consistent parameters",
  "Two linear problems with the same initial mean and covariance whose non-empty sets of parameters reproducing the data are equal have the same MUD point (and LS point): outputs may be reordered, repeated, rescaled, recombined or made redundant.",
  "all pairs of linear problems with equal non-empty solution sets",
  "quantifies over pairs of problems",
  B+":LinearGaussianProblem.solve")
p("Re-solving from the solution changes nothing",
  "The MUD point of the problem whose initial mean is replaced by the MUD point x is x, whether or not the data are attainable.",
  "all linear problems with positive semidefinite initial covariance",
  "all problems",
  B+":LinearGaussianProblem.solve")
p("MAP lies between the initial mean and MUD",
  "For attainable data the MAP point is within v'Cv/(4 alpha) of the MUD point in squared initial-covariance norm, with v independent of the noise C and of alpha, so it converges to the MUD point as alpha grows or the noise vanishes; and it is within alpha times the initial misfit of the initial mean.",
  "all linear problems, all positive definite C, all alpha > 0",
  "limits",
  B+":LinearGaussianProblem.solve")
p("random_linear_problem yields a consistent problem",
  "random_linear_problem returns a reference parameter and a problem whose operator, offset and reference are successive normal draws, whose data are exactly the reference's, whose initial covariance is the given one or a positive definite diagonal one with non-increasing entries of at least 1/2; its MUD point reproduces the data and is the reference if the operator is injective; with a seed the result does not depend on the generator's earlier state.",
  "all generators, dimensions, means, covariances, seeds",
  "all draws and dimensions",
  L+":random_linear_problem")
p("noisy_linear_data adds scaled noise to the reference data",
  "noisy_linear_data(M, ref, std, num_data) returns at entry i the value of row i (or of the only row) of M at the reference plus std_i times the generator's i-th next draw, and advances the generator by num_data draws; wrong lengths raise AssertionError before any draw.",
  "all operators, references, deviations, generators",
  "all sizes and draws",
  L+":noisy_linear_data")
p("rotation_map yields a solvable problem",
  "rotation_map(qnum, tol, b, ref, seed) returns data that are exactly the reference's under rows (sin t, cos t), t from 0 to pi, a positive definite initial covariance and a random mean, seeded by the given seed; for three or more outputs the MUD point and the limit of iterating over the outputs are the reference; rotation_map_trials runs.",
  "all qnum, references, offsets, seeds, generators",
  "all sizes; limit of iterations",
  L+":rotation_map", L+":rotation_map_trials")
p("polynomial_1D_data simulates what it documents",
  "polynomial_1D_data returns the next num_samples variates of the initial distribution, their p-th powers, and as data mu if N = 1, otherwise N normal variates with mean mu and standard deviation sigma drawn after the samples.",
  "all generators, initial distributions, p, sizes, mu, sigma",
  "all draws and sizes",
  "src/mud/examples/simple.py:polynomial_1D_data")
p("The 1-D density example recovers the data mean",
  "mud_point() of the problem returned by identity_1D_density_prob (analytical predicted density) is the first sample nearest to the mean of the simulated data. Without the analytical density the predicted density is the kernel estimate of the samples, and mud_point() is the first sample with the greatest value of initial density times observed density over that estimate.",
  "all generators, sizes, mu, sigma > 0, domains and initial densities positive at the samples",
  "all samples",
  "src/mud/examples/simple.py:identity_1D_density_prob")
p("The 1-D Bayes example agrees with the density example",
  "map_point() of the problem returned by identity_1D_bayes_prob is the first sample nearest to the mean of the data; from the same generator state it is the point the density example returns.",
  "all generators, sizes, mu, sigma > 0, initial distributions, domains containing the samples",
  "all samples",
  "src/mud/examples/simple.py:identity_1D_bayes_prob")
p("The updated density drawn over the parameter space is the current one",
  "DensityProblem.plot_param_space draws the current initial density, the kernel density estimate of the samples weighted with ratio times weights of the current settings, and a line at the MUD point of the current settings; without an initial distribution it raises AssertionError.",
  "all problems and all histories of set_*, fit, estimate and expected_ratio calls",
  "all histories",
  B+":DensityProblem.plot_param_space")
p("The densities drawn over the observable space are the current ones",
  "DensityProblem.plot_obs_space draws the current observed density, the predicted density of the current settings and the kernel density estimate of the data weighted with ratio times weights of the current settings; a range with the wrong number of rows raises ValueError.",
  "all problems and all histories of set_*, fit, estimate and expected_ratio calls",
  "all histories",
  B+":DensityProblem.plot_obs_space")
p("The posterior drawn over the parameter space is the current one",
  "BayesProblem.plot_param_space draws the current prior, a line at the MAP point of the current settings and a kernel density estimate of the samples in which a sample of larger posterior has a larger weight.",
  "all problems and all histories of set_prior, set_likelihood, fit and estimate calls, plain or log",
  "all histories and posteriors",
  B+":BayesProblem.plot_param_space")
p("The push-forward drawn over the observable space is the posterior's",
  "BayesProblem.plot_obs_space draws the current likelihood and the kernel density estimate of the data weighted with the posterior of the current settings; without a likelihood it raises ValueError.",
  "all problems and all histories of set_prior, set_likelihood, fit and estimate calls",
  "all histories",
  B+":BayesProblem.plot_obs_space")
p("get_errors returns the distances to the reference",
  "IterativeLinearProblem.get_errors(ref) returns for each computed point, in order, its Euclidean distance to ref.",
  "all problems, all histories of solve, get_errors and plot_chain_error calls, all references",
  "all histories",
  B+":IterativeLinearProblem.get_errors")
p("Chains and their errors can be drawn",
  "IterativeLinearProblem.plot_chain_error(ref) draws the values get_errors(ref) returns; plot_chain(ref) returns for chains of points with at least two coordinates.",
  "all objects and arguments",
  "all inputs",
  B+":IterativeLinearProblem.plot_chain", B+":IterativeLinearProblem.plot_chain_error")
p("plot_ts shows the chosen sensor's series",
  "SpatioTemporalProblem.plot_ts draws the measured values of the chosen sensor at the selected times and the simulated series, data[i, sensor*n_ts + t] against times[t], of min(max_plot, n) selected samples chosen by the random generator.",
  "all ready problems with two-coordinate sensors, selections, sensors, max_plot, generators",
  "all data, selections and random choices",
  B+":SpatioTemporalProblem.plot_ts")
p("Sensor plots show each selected sensor with its value",
  "sensor_scatter_plot draws the selected sensors at their locations; sensor_contour_plot gives each selected sensor its own datum of the chosen sample.",
  "all ready problems with two-coordinate sensors, samples, selections",
  "all data and selections",
  B+":SpatioTemporalProblem.sensor_contour_plot", B+":SpatioTemporalProblem.sensor_scatter_plot")
p("pca returns a principal component analysis of the standardised data",
  "pca rejects data that is not a non-empty 2-D array, or fewer rows or columns than components, with ValueError. Otherwise the components are orthonormal, the transformed data are the coordinates of the standardised data along them, with mean zero, uncorrelated and in the order of decreasing variance, and no other orthonormal directions carry more variance.",
  "all arrays, numbers of components, and every decomposition the library may compute",
  "all data and every (non-unique) decomposition",
  "src/mud/preprocessing.py:pca")
p("svd returns a decomposition of the standardised data",
  "svd returns the singular value decomposition of the standardised data, honouring the documented keyword arguments, and rejects data that is not a non-empty 2-D array with ValueError.",
  "all arrays and keyword arguments",
  "all data and every (non-unique) decomposition",
  "src/mud/preprocessing.py:svd")
p("pca and svd do not depend on the units of the columns",
  "Multiplying columns by positive numbers and adding constants to them changes neither the result of pca nor that of svd.",
  "all 2-D arrays and all positive affine changes of units per column",
  "all data and unit changes",
  "src/mud/preprocessing.py:pca", "src/mud/preprocessing.py:svd")
p("The pca and svd reductions of mud_problem agree",
  "SpatioTemporalProblem.mud_problem with method pca and svd builds the same density problem up to the sign of each quantity of interest, the coordinates of the residuals along the principal directions, when the singular values are simple; too many components are rejected with ValueError for pca.",
  "all ready problems, numbers of components, decompositions",
  "all data and every (non-unique) decomposition",
  B+":SpatioTemporalProblem.mud_problem", "src/mud/preprocessing.py:pca", "src/mud/preprocessing.py:svd")
p("random_linear_wme_problem draws a problem of the requested sizes",
  "For num_qoi quantities of interest, num_observations data (one number or one per quantity) and std_dev (one number or one per quantity), random_linear_wme_problem returns num_qoi operators and data vectors; datum i of a quantity is the operator's row applied to the reference point plus std_dev times an independent standard normal draw. Operator entries are drawn from dist.",
  "all reference points, sizes, deviations, distributions, generator states",
  "all sizes, deviations and streams of random numbers",
  L+":random_linear_wme_problem")
p("run_wme_covariance: more data reduce the uncertainty of informed directions only",
  "run_wme_covariance computes for each N in Ns the updated covariance of a weighted mean error problem with N data per quantity: prior directions not seen by the operators keep the prior covariance, on the data side the covariance is sigma^2/N, and it is decreasing in N in the order of quadratic forms. It returns the problem for the last N; an empty Ns is rejected with ValueError. With a seed the result does not depend on the generator's state.",
  "all dimensions, noise levels, non-empty sequences of numbers of data, seeds, generator states",
  "all sizes and streams of random numbers",
  L+":run_wme_covariance", B+":LinearWMEProblem.updated_cov")
p("The default work flow returns the best sample in the domain",
  "DensityProblem(X, y, domain, weights) with positive weights and nothing else set: estimate() returns the sample inside the domain with the largest weight * phi(y) / predicted(y), phi the standard normal density, predicted a positive density of mass 1; the first one if there are several; it never raises if there are two samples or more and the outputs are not confined to a hyperplane.",
  "all samples, outputs, positive weights, boxes containing some sample",
  "all data",
  B+":DensityProblem.estimate", B+":DensityProblem.set_initial", B+":DensityProblem.set_observed", B+":DensityProblem.set_predicted")
p("Errors of the high dimensional example",
  "run_high_dim_linear(n, n): for alpha in (1, 0.1, 0.001) the first table holds, for k = 1..n, the relative Euclidean distances to the reference of the MUD, MAP and least squares points of the problem made of the first k rows, the second table those of the rank k operators. MUD and least squares columns do not depend on alpha; in the first table the least squares error never grows with k, and MUD and least squares errors are 0 at k = n for an invertible operator. For dim_input != dim_output nothing is returned: IndexError. The second table is not about truncations: at k = n >= 2 the least squares error is bounded below by the reference's share along the first column of vh.",
  "all dimensions, seeds, generators (uniform draws not negative, reference not 0) and all singular value decompositions",
  "all dimensions, streams of random numbers and decompositions",
  L+":run_high_dim_linear", L+":random_linear_problem", U+":rank_decomposition", B+":LinearGaussianProblem.solve")
p('run_comparison_example yields the documented estimates and figures for every number of data','For each entry of N_vals, in order, run_comparison_example returns a density problem whose mud_point is the sample of the domain with the largest ratio of the normal density at the data mean to the predicted density, a Bayes problem whose map_point is the sample of the domain with output nearest to the data mean, and draws the initial, updated and posterior densities and their push-forwards with exactly these weights. Documented for every domain: samples are drawn from it.','every generator and state, power p, number of samples, mu, sigma > 0, domain and list of data counts','The loop chains the generator state and there is a case for every domain and draw; the default domain hides that domain is not used for sampling.','src/mud/examples/comparison.py:run_comparison_example','src/mud/examples/comparison.py:comparison_plot','src/mud/examples/simple.py:polynomial_1D_data')
p('The spline objective of the Poisson example has one minimiser','spline_objective_function_2d(lam, aff) returns, for every lam, the Euclidean distance on the grid of aff equally spaced points of [0, 1] between the boundary function g and the continuous piecewise linear function through (0, 0), (1/3, lam0), (2/3, lam1), (1, 0); it never raises. It is convex, so any local minimum scipy.optimize.minimize finds is global, and the minimiser is unique exactly when aff >= 4. plot_solution_spline draws the piecewise linear function through equally spaced knots with the values lam, 0 at both ends.','all lam, grid sizes','An optimiser run on one grid shows one minimum; uniqueness and convexity are statements about all lam.','src/mud/examples/poisson.py:spline_objective_function_2d','src/mud/examples/poisson.py:plot_solution_spline','src/mud/examples/poisson.py:run_2d_poisson_sol')
p('Loading the Poisson and ADCIRC data sets adds noise of the requested deviation','load_poisson_prob(file, std_dev, seed) and load_adcirc_prob(file, std_dev, seed, sensors) return the contents of the file and a complete spatio-temporal problem with its samples, data, domain, sensors and times; measurement j is the true value j plus std_dev times the j-th standard normal draw of the (seeded) generator, and the result does not depend on the previous generator state if a seed is given.','all data sets, deviations, seeds and generator states','All data sets and streams; the default std_dev hides that the argument is not used.','src/mud/examples/poisson.py:load_poisson_prob','src/mud/examples/adcirc.py:load_adcirc_prob',B+':SpatioTemporalProblem.load',B+':SpatioTemporalProblem.measurements_from_reference')
p("The order of the sensors and times does not matter", "mud_problem with the same sensors and times selected in another order gives the same problem for method 'wme'. For 'pca' and 'svd', whose decompositions are unique only up to signs, if the num_components largest singular values of the standardised residuals are simple, it gives the same problem up to the signs of the quantities of interest, and the same MUD point and expected ratio after any calls on both that set no output distribution of the user's own.", "all problems, selections and reorderings, decompositions and histories of calls", "All reorderings, data and decompositions.", B+":SpatioTemporalProblem.mud_problem", "src/mud/examples/poisson.py:run_2d_poisson_sol", "src/mud/examples/poisson.py:run_2d_poisson_trials")
p("run_2d_poisson_trials solves one inverse problem per number of sensors", "run_2d_poisson_trials(file, N_vals, order, seed) orders the sensors (a permutation drawn at random, sorted by the first and then the second coordinate, or as stored) and for each N in N_vals, in order, returns the density problem of the two principal components of the residuals at the first N sensors of that order and the figures of its two parameters, which carry its MUD estimate and the minimiser of the spline objective. With a seed the result does not depend on the state of numpy's or Python's generators. It returns whenever the file is complete, its domain is a box, N >= 2 and no combination of the sensor data is constant over the samples. Any N not below the number of sensors gives the same estimates, in whatever order the sensors were drawn, when the two largest singular values are simple.", "all data files, orders, seeds, states of both generators, lists of numbers of sensors, decompositions", "All files, permutations and streams of two generators; N larger than the number of sensors and ties between coordinates are corner cases of slicing and sorting.", "src/mud/examples/poisson.py:run_2d_poisson_trials", B+":SpatioTemporalProblem.mud_problem", B+":DensityProblem.plot_param_space")
p("run_2d_poisson_sol shows and solves the inverse problem with all sensors", "run_2d_poisson_sol(file, sigma, seed, plot_fig, order, group_idxs) returns the loaded problem, the estimated density problem of the two principal components at all sensors, and the requested figures: the response figure scatters for each group [a, b] the sensors a..b of the order and shows the spline through the closest and the first 50 samples, the quantity of interest figure the samples coloured by each component, and the densities figure the two parameters. A seed fixes the results.", "all data files, orders, groups, seeds, states of both generators, requested figures", "All files, groups and streams of two generators; the two generators must be seeded both.", "src/mud/examples/poisson.py:run_2d_poisson_sol", "src/mud/examples/poisson.py:plot_response_ex", "src/mud/examples/poisson.py:plot_qoi_ex")
p("The exponential decay example", "exp_decay_1D(u_0, time_range, domain, num_samples, lambda_true, t_start, sampling_freq, std_dev) returns a problem with one sensor, the samples drawn uniformly from the domain, the data u_0 exp(-lambda_i t_j), the true values u_0 exp(-lambda_true t_j), the deviation and the domain; the times are t_start + j/sampling_freq and lie in time_range. get_closest_to_true_vals gives a sample next to lambda_true: none lies strictly between. After measurements_from_reference the wme quantity of interest is strictly increasing in the decay rate for every noise, so no two rates are confused.", "all initial values, time ranges, domains, numbers of samples, frequencies, deviations, generator states and noises", "All samples and noises; rounding aside the number of times is a ceiling whose boundary cases one table cannot show; the default time_range starts at the default t_start.", "src/mud/examples/exp_decay.py:exp_decay_1D", B+":SpatioTemporalProblem.get_closest_to_true_vals", B+":SpatioTemporalProblem.mud_problem")
p("The two-parameter decay and the temporal example return", "exp_decay_2D returns a spatio-temporal problem for every two-parameter domain and positive frequency, and identity_1D_temporal_prob returns a density problem.", "all arguments, samples and generator states", "A run fails for one input; that no argument makes it succeed is a statement about all.", "src/mud/examples/exp_decay.py:exp_decay_2D", "src/mud/examples/simple.py:identity_1D_temporal_prob", B+":SpatioTemporalProblem.load")
p("A time window of the ADCIRC example uses exactly the data inside it", "adcirc_time_window(prob, (t1, t2), ...) returns the estimated density problem built from the residuals at exactly the times t with t1 < t < t2 (bounds excluded, whatever the order of the times), all samples and the principal components of these residuals; its figures show the time series with that window, the vectors of those components over the times of the window, the densities of the parameters and the learned quantities of interest. Two windows that contain the same times give the same result; a window with no time is rejected with ValueError; the result does not depend on windows solved before.", "all spatio-temporal problems, windows, numbers of components, requested figures and decompositions", "All problems, windows and selections of figures; earlier windows leave state behind in the problem.", "src/mud/examples/adcirc.py:adcirc_time_window", B+":SpatioTemporalProblem.mud_problem", "src/mud/examples/adcirc.py:pca_vector_plot")
p("adcirc_solve solves one problem per time window and saves each figure", "adcirc_solve(file, num_components, t1, t2, ..., sigma, mesh_value, save, figures, seed) loads the ADCIRC data, adds noise of deviation sigma to the measurements and for each window, in order, returns its estimated problem and a table row with its bounds, MUD point and expected ratio. Figures of different windows are saved in different files, the mesh figure shows the requested value, and any number of windows is accepted. A seed fixes the results.", "all data files, windows, figures, mesh values, seeds and generator states", "All data files and lists of windows; overwritten files show only with several windows.", "src/mud/examples/adcirc.py:adcirc_solve", "src/mud/examples/adcirc.py:load_adcirc_prob", "src/mud/examples/adcirc.py:tri_mesh_plot")
p("run_contours draws each requested figure of the problem it was given, and returns that problem solved", "run_contours(plot_fig, ...) builds the linear Gaussian problem from its arguments (documented defaults for those omitted), and returns it together with exactly the requested figures, in a fixed order and with their file names: the squared misfit, the two regularisations, and the two functionals on the grid, the MUD, MAP, least squares and initial points where the API returns them, and the solution contour through the data-consistent parameters. 'all' requests every figure. Any number of observations is accepted.", "all problems with two parameters, all lists or strings of requested figures, saving or not", "All problems and selections of figures; the wrong solution contour coincides with the right one for the defaults.", L+":run_contours", L+":call_mud", B+":LinearGaussianProblem.plot_contours", B+":LinearGaussianProblem.plot_sol")
p("The boundary conditions drawn are the ones solved", "The forward solver's true boundary condition vanishes at both ends and has the extreme value gamma, at 2/7; it is the curve that plot_solution_spline draws as the truth for the default gamma. The line that plot_solution_spline(lam) draws, and that the spline objective measures, is the boundary condition that the forward solver solves for lam.", "all gamma, parameter vectors and points of the boundary", "Only visible in FEniCS solutions, which no test runs, and only on the last interval.", "src/mud/examples/fenics.py:fenics_poisson_solve", "src/mud/examples/fenics.py:piecewise_eval_from_vector", "src/mud/examples/poisson.py:plot_solution_spline")
p("run_fenics generates the data set it documents", "run_fenics(num_samples, num_sensors, mins, maxs, sensor_low, sensor_high, gamma, save_path, seed) draws the sensors uniformly in their box and the samples uniformly in the domain; data[i, j] is the solution for the boundary values of sample i at sensor j and true_vals[j] the true solution there; it returns the domain, and saves the same data set in one file whose path it returns and changes no other file. Data sets of different sizes never overwrite each other. A seed fixes everything. Without FEniCS it raises ModuleNotFoundError, for bounds of different lengths ValueError, before anything is drawn.", "all sizes, domains, boxes, gammas, seeds, generator states, solvers and disks", "FEniCS is not available to the tests; all solvers, streams and sizes.", "src/mud/examples/fenics.py:run_fenics", "src/mud/examples/fenics.py:fenics_poisson_solve")
p("A generated data set can be loaded and inverted", "load_poisson_prob of the path that run_fenics returned yields a complete problem with exactly the generated samples, data, sensors and domain, whose measurements are the true solution at the sensors plus the noise, whatever other files exist and whether or not xarray is installed; and the trials on it return whenever the domain is a box and no combination of the sensor data is constant over the samples.", "all generated data sets, later states of the disk, generators and orders of sensors", "End to end over two programs that communicate by a file; tests have neither FEniCS nor the files.", "src/mud/examples/fenics.py:run_fenics", "src/mud/examples/poisson.py:load_poisson_prob", "src/mud/examples/poisson.py:run_2d_poisson_trials")
p("The poisson_solve and poisson_trials commands", "poisson_solve FILE prints the MUD estimate from the two leading components of the data of all sensors and draws the figures named with -p. poisson_trials FILE -n N ... prints one row per number given, in increasing order whatever the order of the options: N, the MUD estimate from the first N sensors of one random order, and the mean of its ratio. With --seed the table is reproducible.", "all data files of the example, numbers of sensors, noise seeds, generator states and figure names", "The commands are not tested; all files, orders and generator states.", "src/mud/examples/examples.py:poisson_solve", "src/mud/examples/examples.py:poisson_trials", "src/mud/examples/examples.py:examples", "src/mud/examples/poisson.py:run_2d_poisson_sol")
p("The mud_paper command", "mud_paper reproduces the figures of the paper: with the data files in place and of the expected form it runs to the end; it uses existing data files as they are, and without FEniCS downloads a missing one to its place; where FEniCS is installed it generates missing data itself. The table has the rows 5, 50 and 500, each from the first N sensors of one order; figures 11 to 13 show three windows with one and two components, each from the instants strictly inside. Each figure has its own file. With --seed a second run shows the same.", "for every content of the disk and of the server, every seed, save path, state of both generators and every data set", "the failure depends on what is installed and present, and the end-to-end run depends on both generators and on two data files", "src/mud/examples/examples.py:mud_paper", "src/mud/examples/poisson.py:run_2d_poisson_sol", "src/mud/examples/adcirc.py:adcirc_time_window", "src/mud/examples/linear.py:run_contours", "src/mud/examples/fenics.py:run_fenics")
p("The commands comparison, contours, wme_covariance, high_dim_linear and poisson_generate", "Each command runs its example with the values given on the command line (the last one of those that can be given once, all of those that can be given several times), or with the defaults of the help; values that are not numbers of the right kind are usage errors and nothing runs. With --seed every command is a function of its arguments; a seed out of range is an error. A JSON file of arguments for contours is used as documented. poisson_generate prints the path of the file it wrote, and poisson_trials accepts it; without FEniCS it says so and writes nothing.", "for every command line, content of the JSON file, generator, state and seed", "command lines and file contents are an unbounded space; the failures are in combinations nobody tried", "src/mud/examples/examples.py:comparison", "src/mud/examples/examples.py:contours", "src/mud/examples/examples.py:wme_covariance", "src/mud/examples/examples.py:high_dim_linear", "src/mud/examples/examples.py:poisson_generate")
p("Importing mud.plot leaves the session as it was but for its settings", "Whatever matplotlib, LaTeX or the file system do during the import, and whatever they raise, at any point: the LaTeX check restores every setting of matplotlib, leaves only the file .test_fig.png in the working directory to have changed, and removes it if LaTeX works; RuntimeError and FileNotFoundError mean no LaTeX, anything else ends the import with the settings untouched. A successful import sets the thirteen settings of the package, text.usetex according to the check, and no other. The user's open figures and files are left alone.", "every session (settings, open figures, files), every working directory, every point of failure and exception", "The outcome depends on what is installed and on where the check is interrupted; a test runs in one environment, with no figure open and no file of that name.", "src/mud/plot.py:_check_latex", "src/mud/plot.py:mud_plot_params")
p("save_figure writes the current figure to the named file, and nothing else", "save_figure(fname, save_path, close_fig) writes the current figure to save_path/fname, touches no other file, figure or setting and closes the figure unless close_fig is False; if writing raises, the exception is the caller's and the figure stays open. A script that saves any number of figures under different names has all of them in their files afterwards and leaks no figure. The file is always inside save_path.", "all sessions, figures, names, directories, renderers and their exceptions, all scripts", "All names and histories of figures; overwriting and leaking show only with several figures.", "src/mud/plot.py:save_figure")
p("plot_1D_vecs draws every vector on the axes it returns", "plot_1D_vecs(vecs, markers, ax, label, **kwargs) draws on ax, or on the only axes of a new figure, for the i-th vector its entries over 0, 1, ..., with the i-th marker and the label p^(i), in order, and nothing else, and returns these axes; other figures are untouched. With fewer markers than vectors it raises IndexError, after drawing as many vectors as there are markers.", "all lists of vectors and markers, options, sessions and axes", "All numbers of vectors and markers; which axes are current is state of the session.", "src/mud/plot.py:plot_1D_vecs")
p("The updated distribution reproduces the observed one", "For the linear Gaussian problem with full rank predicted covariance, the normal distribution with the MUD point as mean and the updated covariance is pushed forward by the map to exactly the observed distribution N(y, C), and it is the initial distribution reweighted by the ratio of the observed to the predicted distribution. For rank deficient maps its push-forward is the observed distribution projected orthogonally on the attainable outputs.", "all dimensions, operators, offsets, data, means, covariances", "An equality of probability distributions on all measurable sets; sampling can only suggest it.", B+":LinearGaussianProblem.solve", F+":updated_cov", F+":mud_sol")
p("The MUD point is the point of maximal updated density", "For the linear Gaussian problem with positive definite covariances and a map of full row rank, initial density times observed over predicted density (at the output) is the density of the normal distribution with mean the MUD point and covariance updated_cov; it is strictly smaller at every other parameter.", "all dimensions, full rank operators, offsets, data, means, positive definite covariances and all parameters", "A strict global maximum over a continuum for all problems.", B+":LinearGaussianProblem.solve", F+":updated_cov", F+":mud_sol")
p("The MAP point and covariance are those of Bayes' posterior", "map_sol_with_cov(A, b, y, m, S, C, w) returns mean and covariance of the posterior distribution of Bayes' theorem for the prior N(m, w S) and the likelihood of y = A lambda + b + noise, noise ~ N(0, C): prior density times likelihood over the evidence (its integral) is the normal density with that mean and covariance.", "all dimensions, operators, offsets, data, means, positive definite covariances, positive weights", "An identity between densities and an integral over all parameters, for all problems.", F+":map_sol_with_cov", F+":map_sol", B+":LinearGaussianProblem.solve")
p("The weighted mean error of noisy data is standard normal at the truth", "Data made by add_noise from a signal with deviation sd, and wme(predictions, data, sd): with independent standard normal noise the value of a sample is normally distributed with variance 1 and as mean the scaled mean deviation of its predictions from the signal, exactly and for any number of data; standard normal if the predictions are the signal, which is what the default observed distribution assumes. With any other independent noise of mean 0 and variance 1 the distribution tends to the standard normal one as the number of data grows.", "all signals, numbers of data, deviations, prediction tables, generators with independent draws", "A statement about probability distributions and a limit; a test sees single draws.", U+":add_noise", F+":wme", B+":DensityProblem.set_observed")
p("The expected ratio estimates how much of the observed distribution can be predicted", "For samples drawn independently (from the initial distribution, or from another positive density and weighted by the quotient), the outputs of a model on them, and the true densities of the initial, observed and output distributions set, DensityProblem.expected_ratio returns for every number of samples and converges almost surely to the observed probability of the region where the predicted density does not vanish; this is 1 iff the observed distribution is absolutely continuous with respect to the distribution of the outputs (predictability). In the linear Gaussian case of full row rank it converges to 1.", "all models, densities, sampling distributions, weights, domains and numbers of samples", "An almost sure limit over all sample sequences.", B+":DensityProblem.expected_ratio", B+":DensityProblem.set_weights", B+":DensityProblem.set_predicted")
p("The MUD estimate from noisy measurements is unbiased, normal and consistent", "LinearWMEProblem with data of linear quantities of interest at a true parameter plus independent standard normal noise times the deviation: the MUD point is normally distributed around the MUD point for exact data; directions the data do not inform keep the initial mean and covariance; for independent gradients the estimate is unbiased for each quantity and the covariances of these estimates are those of updated_cov; with as many quantities as parameters it is distributed as N(true parameter, updated_cov). For any integrable independent noise of mean 0 it converges almost surely, as data are added, to the exact-data MUD point: to the true parameter if it is identified.", "all dimensions, gradients, deviations, numbers of data, initial means and covariances, true parameters and noises", "Distributions and almost sure limits of the estimator.", B+":LinearWMEProblem", B+":LinearGaussianProblem.solve", F+":updated_cov")
p("The MUD point of a DensityProblem converges to the maximiser of the updated density", "For independent samples from any distribution that charges every neighbourhood of a peak of the updated density (initial x weight x observed / predicted at the output), almost surely: estimate returns for every number of samples, the updated density at the estimate never decreases as samples are added, and the estimate converges to the peak. If the updated density is at most h outside the ball of radius e around the peak, the estimate from n samples lies outside with probability at most (1 - p)^n, p the probability that a sample has updated density above h.", "all models, densities, weights, domains, sampling distributions and numbers of samples", "An almost sure limit over all sample sequences and a bound on a probability.", B+":DensityProblem.mud_point", B+":DensityProblem.estimate", B+":DensityProblem.fit")
p("DensityProblem and LinearGaussianProblem agree in the limit", "Normal initial distribution with independent entries, linear model of full row rank, normal observations, predicted distribution the true one: the MUD points of DensityProblem from independent samples of any distribution that charges every open set converge almost surely to the MUD point of LinearGaussianProblem; the probability of being further than e from it decreases exponentially with the number of samples.", "all dimensions, full rank operators, offsets, data, means, deviations, sampling distributions", "Two classes and an almost sure limit.", B+":DensityProblem.mud_point", B+":LinearGaussianProblem.solve", F+":mud_sol")
p("The MAP point of a BayesProblem converges to the maximiser of the posterior", "For independent samples from any distribution that charges every neighbourhood of a peak of prior times likelihood, almost surely estimate returns as soon as there are enough samples and converges to the peak. For a linear model with normal prior and likelihood (independent entries) the limit is the MAP point of LinearGaussianProblem.", "all models, priors, likelihoods, domains, sampling distributions and numbers of samples", "An almost sure limit over all sample sequences.", B+":BayesProblem.map_point", B+":BayesProblem.fit", B+":LinearGaussianProblem.solve")
p("Rounding error of the weighted mean error", "In floating-point arithmetic with relative error u per operation, whatever the order in which the sum is taken, wme(predictions, data, sd) returns for every sample the exact value up to 2 (n + 6) u times the mean absolute deviation scaled like the value itself (sum of |prediction - datum| over sd sqrt(n)), n the number of data with (n + 6) u <= 1; predictions equal to the data give exactly 0.", "all prediction tables, data, deviations, numbers of data, roundings and orders of summation", "A bound over all inputs and all evaluation orders; a test compares single values with a guessed tolerance.", F+":wme")
p("The MUD point in floating point is a near maximiser", "In floating-point arithmetic with relative error u, DensityProblem.mud_point returns a sample whose exact updated density is at least ((1-u)/(1+u))^3 times that of every other sample; it is the exact MUD point whenever the best sample is better than all others by more than this factor.", "all problems with nonnegative densities and weights and positive predicted densities, all roundings", "Ties broken by rounding show on inputs a test does not contain.", B+":DensityProblem.mud_point", B+":DensityProblem.fit")
p("Rounding error of the expected ratio", "In floating-point arithmetic with relative error u and any order of summation, DensityProblem.expected_ratio returns whenever the exact computation does, and the exact value up to a relative error 6 n u, n the number of samples with 3 n u <= 1.", "all problems with nonnegative observed densities and weights, positive predicted densities and a positive weight; all roundings and orders of summation", "A bound over all inputs and all evaluation orders.", B+":DensityProblem.expected_ratio", B+":DensityProblem.fit")
p("The MAP point in floating point is a near maximiser", "In floating-point arithmetic with relative error u (no underflow), BayesProblem.map_point raises ValueError exactly when prior times likelihood vanishes at every sample, and otherwise returns a sample whose prior times likelihood is at least (1-u)/(1+u) times that of every sample. With a log likelihood it raises ValueError (the rounded log posterior sums to zero) or returns a sample whose log prior plus log likelihood is largest up to u times the magnitudes involved.", "all problems with nonnegative densities, all roundings and orders of summation", "Ties and cancellations caused by rounding show on inputs a test does not contain.", B+":BayesProblem.map_point", B+":BayesProblem.fit")
p("Rounding errors do not accumulate in the iterative solver", "If each update of iterate is computed up to an error e (distance measured by the covariance), the last point is within e times the number of updates of the exact one, for every system, consistent or not; this is attained when the solution is not unique. If the system has exactly one solution and every row is visited, there is a rate r < 1 such that after any number of epochs the distance of the computed point to the solution is at most r^epochs times the initial distance plus e len(idx) / (1 - r).", "all systems, covariances, initial points, orders of rows, numbers of epochs and errors", "A bound uniform in the number of epochs.", F+":iterate", B+":IterativeLinearProblem.solve", F+":mud_sol")
p("The linear estimates depend continuously on the problem", "If operators, offsets, data, initial means, covariances and alpha tend to those of a limit problem, the MAP points tend to its MAP point (positive definite covariances); the MUD points and updated covariances tend to its own if the predicted covariance A S A^T is invertible; the least squares points if the operator has full row or column rank. For a fixed operator and fixed covariances every estimate is Lipschitz in data, offset and initial mean, whatever the rank. At a rank deficient operator MUD and least squares jump: arbitrarily small changes of the operator move them arbitrarily far.", "all linear problems and all convergent families of problems", "A limit over families of problems.", B+":LinearGaussianProblem.solve", F+":mud_sol", F+":map_sol", F+":updated_cov")
p("The default predicted density is consistent", "DensityProblem without a predicted density: for independent samples (weighted by the quotient if they are drawn from another distribution), a measurable model with finite second moments whose output is not confined to a hyperplane, and either bandwidth rule, almost surely set_predicted succeeds as soon as there are enough samples, the stored values are those of the Gaussian kernel estimate of the outputs, and the estimated distributions converge (weakly) to the true predicted distribution. If the outputs are confined to a hyperplane, set_predicted raises for every number of samples. For a normal initial distribution and a linear model of full row rank the limit is N(A m + b, A S A^T).", "all sampling distributions and weights, models, domains and both bandwidth rules; almost every sequence of samples", "A limit over all sample sizes and almost all random streams.", B+":DensityProblem.set_predicted", B+":DensityProblem._set_weights")
p("The default predicted density converges uniformly", "DensityProblem without a predicted density: for independent samples with bounded weights and a model whose outputs have finite second moments and a bounded density, almost surely set_predicted succeeds as soon as there are enough samples, and the kernel estimates whose values it stores converge to the true density uniformly on every compact set at whose points the density is continuous. For a normal initial distribution and a linear model of full row rank they converge uniformly on the whole output space.", "all sampling distributions and bounded weights, models, domains and both bandwidth rules; almost every sequence of samples", "A limit over all sample sizes and almost all random streams, uniform in the point of evaluation.", B+":DensityProblem.set_predicted")
p("The default MUD estimate converges to the maximiser of the updated density", "DensityProblem without a predicted density, outputs with a bounded density: for independent samples and bounded initial and observed densities, the estimates converge almost surely to the peak of the updated density initial x observed / density of the outputs as the number of samples grows.", "all sampling distributions, models, domains, initial and observed densities; almost every sequence of samples", "A limit over all sample sizes and almost all random streams; runs at any fixed size show an estimate with no reference point.", B+":DensityProblem.mud_point,fit,set_predicted")
p("The expected ratio with the default predicted density converges to one", "DensityProblem without a predicted density, independent samples, outputs with a bounded density: when the observed density is bounded and vanishes outside a compact set where the density of the outputs is continuous and positive, the value expected_ratio returns converges almost surely to 1. For uniform samples on the unit interval and the identity as model it converges to the observed probability of the interval for every continuous observed density.", "all sampling distributions, models, weights, domains and observed densities as described; almost every sequence of samples", "A limit over all sample sizes and almost all random streams; a test sees one finite value near 1.", B+":DensityProblem.expected_ratio,fit,set_predicted")
p("Samples weighted by weights times ratios represent the updated distribution", "After fit, the averages of a bounded quantity over the samples, weighted by sample weights times the ratios r of fit, converge almost surely to its expectation under one probability distribution, the updated one, whose outputs have exactly the observed distribution: with the density of the outputs given as predicted density (any number of outputs, every predictable observed density), and with the default predicted density under the conditions of C146.", "all sampling distributions, models, weights and bounded measurable quantities; almost every sequence of samples", "A limit over all sample sizes and almost all random streams, for every test quantity.", B+":DensityProblem.fit,set_predicted,set_observed")
p("With growing data the MUD point becomes the sample nearest to the truth", "Samples, domain and weights fixed, DensityProblem with default densities on the wme of k quantities, each measured N times: if the means of the measurements and of each sample's predictions converge, then from some N on the MUD point is a sample of the domain whose mean predictions are nearest to the mean measurements, distances taken in units of the standard deviations. With independent measurement errors of mean zero this happens almost surely; if the nearest sample is unique, the MUD point is this sample.", "all samples, predictions not confined to a hyperplane, domains, positive weights and standard deviations, data sequences; almost every sequence of errors", "A limit over all numbers of measurements; a test sees one data set, and the estimate of the predicted density changes with each.", F+":wme; "+B+":DensityProblem.estimate,fit")
p("With growing data the expected ratio tends to zero unless a sample is exact", "In the situation of C148 the diagnostic expected_ratio tends to 0 as the measurements accumulate unless a sample predicts the limits exactly, however good the model is; with exact data predicted exactly by a sample it grows beyond all bounds.", "all samples, predictions not confined to a hyperplane, domains, positive weights and standard deviations, data sequences; almost every sequence of errors", "A limit over all numbers of measurements; a test sees finite values for one data set.", F+":wme; "+B+":DensityProblem.expected_ratio")
p("map_problem chooses the sample with least squares", "map_problem(lam, qoi, qoi_true, domain, sd, num_obs).estimate(): the sample in the domain with the smallest sum of squared differences between its predictions and the first num_obs noisy data, the first one in case of ties. With log=True the same, except for a ValueError when all samples are in the domain and the log posteriors sum to 0. With no sample in the domain: ValueError without log, the first sample with log.", "all samples, predictions, true values, domains, standard deviations, numbers of observations and generator states", "Quantifies over all tables of predictions and all noise.", F+":map_problem; "+B+":BayesProblem.estimate,fit")
p("mud_problem and map_problem agree when the data are plentiful", "On the same samples and the same generator state: from some number of measurements on, the estimates of mud_problem (without split) and map_problem are the same sample, if the means of predictions, data and squared differences converge and one sample in the domain is nearest in the mean.", "all samples, predictions, domains, weights, standard deviations, generators and true values", "A limit over all numbers of measurements.", F+":mud_problem,map_problem")
p("Plot options of DensityProblem and BayesProblem: the user's where given, the defaults otherwise, None to suppress", "plot_param_space and plot_obs_space draw each curve and line with the options the user gives for it and the default of every option not given; passing None leaves out exactly that element and nothing else leaves one out; options change neither the densities, nor the positions, nor the effect on the object; an option with the name of an argument that the method passes on itself is a TypeError.", "all problems in all states, all option dictionaries for all elements, all other arguments, every kernel estimator", "Option dictionaries have unboundedly many combinations of present, absent, empty and None, in every state of the problem.", B+":DensityProblem.plot_param_space,plot_obs_space,BayesProblem.plot_param_space,plot_obs_space; "+P+":plot_dist,plot_vert_line")
p("plot_ts draws with the options of the caller", "plot_ts draws the measured points with meas_kwargs and the simulated series with samples_kwargs, each completed by the defaults; options do not change what is drawn.", "all problems, selections, numbers of lines, random choices and option dictionaries", "Quantifies over all selections and random choices; the deviation shows only in one of many lines.", B+":SpatioTemporalProblem.plot_ts")
p("plot_sol respects the dictionaries of the caller", "plot_sol draws marker, line and annotation with the options given, the annotation where asked (by default to the upper left of the marker), and leaves the dictionaries as they were, over any sequence of calls.", "all problems, points, labels, dictionaries (shared or not, default or not), sequences of calls", "Aliasing shows only in a history of calls and in which dictionaries are shared.", B+":LinearGaussianProblem.plot_sol")
p("plot_contours draws with its options and numbers the contours", "LinearGaussianProblem.plot_contours draws each contour with plot_opts, and with annotate=True labels the i-th with label.format(i=i), at note_loc or at the start of the line; this also holds for the default options.", "all problems with two parameters, decompositions, widths, labels and options", "Quantifies over all problems and options; what matplotlib accepts is external.", B+":LinearGaussianProblem.plot_contours")
p("A call on a DensityProblem that raises has no effect", "If a setter, fit, estimate or expected_ratio raises, the results of every later call are those without the failed call; repeating the failed call raises the same exception again and changes nothing.", "all problems in all states, all calls and arguments, every exception, all later sequences of calls", "The exception can come at any step of any call of any history, and its traces show only in later calls.", B+":DensityProblem.set_weights,set_observed,set_initial,set_predicted,fit,estimate,expected_ratio")
p("A call on a BayesProblem that raises has no effect", "If set_prior, set_likelihood, fit or estimate raises, the results of every later call are those without the failed call; repeating the failed call raises the same exception again and changes nothing.", "all problems, histories, calls and arguments, every exception, all later sequences of calls", "The exception can come at any point of any history, and its traces show only in later calls.", B+":BayesProblem.set_prior,set_likelihood,fit,estimate")
p("An assignment to a SpatioTemporalProblem that raises has no effect", "If assigning domain, lam, lam_ref, data, measurements, true_vals, sample_dist, sensors, times or std_dev raises, the object is as before.", "all attributes, values and objects", "Quantifies over all objects and all rejected values.", B+":SpatioTemporalProblem")
p("A load that raises has no effect", "If load(ds) raises, the object is as before.", "all data sets, mappings and objects", "Quantifies over all data sets and the position of the defective entry.", B+":SpatioTemporalProblem.load")
p("Loading a data set into an object in use", "load(ds) replaces the problem in the object by that of the data set; in particular loading the same data set twice changes nothing.", "all complete data sets and all objects with samples", "Quantifies over the state of the object and the data set.", B+":SpatioTemporalProblem.load,domain")
p("Using data in batches", "Calling map_sol_with_cov or mud_sol_with_cov for one batch of data after the other, with the mean and covariance returned for one batch as initial mean and covariance for the next, gives the result of one call with all the data, in any order of the batches.", "all numbers, sizes and orders of batches, all maps, data and positive definite covariances", "Quantifies over all sequences of batches of any length; one agreement is no evidence for another.", F+":map_sol_with_cov,mud_sol_with_cov")
p("The order of the observations does not matter in linear problems", "Listing the observations of a LinearGaussianProblem - rows of A, entries of b and y, rows and columns of cov_o - in another order changes neither the result (or exception) of any sequence of solve calls nor mud, mud_alt, map, ls, up_cov, cov_p or updated_cov. The same for the observations of each quantity of interest of a LinearWMEProblem, for its quantities of interest, and for wme(predictions, data).", "all permutations, problems (singular ones included), methods and sequences of calls", "There are d! orders of d observations, for every problem and history.", B+":LinearGaussianProblem.solve,updated_cov,LinearWMEProblem", U+":transform_linear_map,transform_linear_setup", F+":wme")
p("Quantities unrelated to the data keep their initial distribution", "Linear combinations Q lambda of the parameters that are, under the initial distribution N(mean_i, cov_i), uncorrelated with every output of the map keep their initial values at the MUD, alternative MUD and MAP points, at all points returned by iterate and after any number of batches of data - whatever the data, the offset and the rank of the map; their covariances with all parameters under updated_cov and cov_p are the initial ones, so that their distribution is the initial one. The MAP variance of every other linear combination is smaller than the initial one. A parameter that the map does not use and that is initially uncorrelated with the others is such a quantity.", "all problems, data, orders of rows, numbers of epochs and batches, and all quantities Q", "It is a statement about every combination of the parameters, and about histories of any length.", B+":LinearGaussianProblem.solve,updated_cov", F+":mud_sol_with_cov,map_sol_with_cov,iterate,updated_cov")
p("How the updates change the uncertainty", "The MUD update makes no quantity c.lambda more uncertain exactly when no combination of the data is more spread than its prediction under the initial distribution; it makes none less uncertain exactly when none is less spread; it leaves the covariance as it is exactly when data and predictions have the same covariance. For each quantity the change of the variance is that of its best linear prediction from the outputs, whose variance becomes that of the data. The MAP variance of a quantity (alpha given) is always smaller than its MUD variance from the same initial covariance, unless it is uncorrelated with the outputs; and the predictions of the MAP distribution are less spread than the data in every direction, whatever the map.", "all problems with positive definite initial covariance and maps of full row rank (none needed for the last claim), all data, all quantities", "It is an equivalence between statements about all combinations of parameters and of outputs.", B+":LinearGaussianProblem.solve,updated_cov", F+":updated_cov")
p("Repeated measurements count through their number and their average", "wme depends on data and predictions only through their sums; the value for two sets of measurements in one call is that of the sets weighted with the square roots of their sizes, over the square root of the total. A LinearWMEProblem is the same problem for other data with the same (weighted) average of each quantity. If no data covariance is given it does not matter whether the measurements of a quantity are passed as one entry of the lists or distributed over several, in any order: solve with every method, in every sequence of calls, returns and stores the same, and updated_cov is the same - although the transformed map is another one and no longer of full row rank.", "all data, predictions, quantities of interest, partitions of their measurements into entries and sequences of calls of solve", "It compares problems with different numbers of rows, for all partitions of the data and all histories of calls.", F+":wme", B+":LinearWMEProblem,LinearGaussianProblem.solve,updated_cov", U+":transform_linear_map")
p("A linear problem holds the results of the last calls that computed them", "The attributes mud, mud_alt, up_cov, map, cov_p and ls raise AttributeError on a new LinearGaussianProblem. After any history of calls of solve(method, output_dim), some of which may raise (solve('all') possibly after some of its steps) or ask for an unknown method, each holds what a single solve for it on the fresh object leaves there, with the output_dim of the last call of the history that computed it, or is as it was if no call did. mud_alt and up_cov always come from the same call, and so do map and cov_p.", "all problems and all histories of calls, with any method names and output dimensions, raising or not", "It ranges over unbounded histories of calls, with exceptions in the middle of a call.", B+":LinearGaussianProblem.solve,LinearGaussianProblem.__init__")
p("The mean square error of the estimates", "If the parameters are drawn from the initial distribution and the data carry independent normal noise with the given covariance, then the covariances reported with the estimates are their mean square errors, for every linear quantity w . lambda: for solve('map') the attribute cov_p (initial distribution N(mean, alpha cov)), for solve('mud') the value of updated_cov() (initial distribution N(mean, cov), any alpha > 0). No way of estimating the quantity from the data, linear or not, has a smaller mean square error than the MAP point; so for alpha = 1 MUD never does better than MAP on average.", "all maps, offsets, means, covariances, quantities and measurable estimators with finite mean square error", "It is about expectations over continuous distributions and compares with every possible estimator.", B+":LinearGaussianProblem.solve,updated_cov")
p("More or better information never hurts", "Every linear combination of the parameters has at most the reported variance it has in a problem with less information: observations left out, observations replaced by averages or other combinations of them, more noise, or a larger initial covariance. (a) For the attribute cov_p after solve('map'). (b) For updated_cov(), where the initial covariance stays the same and no observation has more noise than its prediction had initially.", "all maps, data, means, positive definite covariances, combinations of the observations and combinations of the parameters", "It compares the problem with all the problems with less information.", B+":LinearGaussianProblem.solve,updated_cov")
p("The reported uncertainties are calibrated", "If the parameters are drawn from the initial distribution and the data carry independent normal noise with the given covariance, then the error of the estimate is normal with mean zero and the reported covariance (cov_p after solve('map'), with initial distribution N(mean, alpha cov); updated_cov() for solve('mud'), with initial distribution N(mean, cov)). So, for every linear quantity, the interval of z reported standard deviations around its estimate contains its true value with the probability that a standard normal variable is at most z in modulus. For MAP this also holds among the data in any given set: the error is independent of the data.", "all maps, offsets, means, covariances, quantities, z and measurable sets of data", "It is about probabilities over continuous distributions.", B+":LinearGaussianProblem.solve,updated_cov")
p("Iterating on contradictory data settles", "No assumption is made on the data. (a) For every system, covariance and order of rows there is a rate r < 1, the same for all data, such that the chain of iterate approaches a cycle: an epoch started at a certain point xM returns the points of that cycle and ends at xM, and the squared distance of the j-th point of the i-th epoch to the j-th point of the cycle is at most r^i times the squared distance of the initial mean to xM. So the last points converge to xM, at which iterate started there ends again and which satisfies the row visited last; xM does not depend on the initial mean if the visited rows determine the parameters; and xM satisfies all visited rows if some point does, whatever the rows that are not visited say. (b) xM is the MUD point of the whole system. (c) xM does not depend on the order of the rows.", "all maps, offsets, data (consistent or not), positive definite covariances, initial means, lists of rows (complete or not, with repetitions) and numbers of epochs", "A limit, with a rate that is uniform over all data.", F+":iterate,performEpoch")
p("Units do not matter in the iterative solver", "The chain returned by iterate is unchanged, point by point, if rows, offsets and data are multiplied by non-zero factors (other units of the observations), if the covariance is multiplied by a non-zero number, if the same vector is added to offset and data, and if the observations are renumbered and idx_order with them. For a problem in other parameters z with x = T z + t (other units, another origin, or fewer parameters) the chain in x is the image of the chain in z.", "all maps, offsets, data, covariances (singular ones included), means, factors, matrices T, shifts t, lists of rows and numbers of epochs", "It relates runs on different inputs, for all factors and transformations.", F+":iterate,performEpoch")
p("Credible regions and the size of the misfit", "If the parameters are drawn from the initial distribution and the data carry independent normal noise with the given covariance: the ellipsoid of the parameters l with (l - x)' cov^-1 (l - x) <= t around the estimate x contains the true parameters with the probability that a chi-squared variable with as many degrees of freedom as parameters is at most t, for x the MAP point and cov = cov_p (initial distribution N(mean, alpha cov); also among the data in any given set) and for x the MUD point and cov = updated_cov() (initial distribution N(mean, cov)); both covariances are invertible. The regularised misfit that the MAP point minimises has at its minimum the chi-squared distribution with as many degrees of freedom as observations.", "all maps, offsets, means, positive definite covariances, levels t and measurable sets of data", "It is about probabilities over continuous distributions.", B+":LinearGaussianProblem.solve,updated_cov")
p("MAP points for a vague prior or small noise", "For any data, attainable or not: (a) among the points that fit the data best in the norm of the noise covariance there is exactly one that is nearest to the initial mean in the norm of the initial covariance; the squared distance of the MAP point to it is at most a constant times t / alpha if the noise covariance is multiplied by t, so MAP converges to it as alpha grows or the noise vanishes. (b) This point is the MUD point.", "all maps, offsets, data, means, positive definite covariances, alpha and t > 0", "A limit, with a rate.", B+":LinearGaussianProblem.solve")
p("A selection is the same as having measured only that", "mud_problem on a problem with sample, time and sensor masks gives exactly what mud_problem without masks gives on a problem that holds only the selected samples, times and sensors: the same density problem or the same exception, for every method, number of components and sample weights; hence equal estimates after every history.", "all problems, masks (index lists, boolean arrays, slices), methods and weights of the samples, every history of operations afterwards", "Two programs are compared on all problems and masks.", B+":SpatioTemporalProblem.mud_problem", B+":SpatioTemporalProblem.sample_data")
p("When the estimates of a linear problem agree", "For data that some parameters reproduce: (a) these are equivalent: the initial mean reproduces the data; MUD is the initial mean; MAP is the initial mean; MAP is MUD. Otherwise MAP lies strictly between: nearer to the initial mean than MUD (in the norm of the initial covariance) but different from it, and with a smaller misfit than the initial mean but not zero. (b) MUD is the least-squares point exactly when cov_i^-1 (LS - mean_i) is orthogonal to every direction that A maps to zero; for cov_i = s I, exactly when mean_i is. (c) If A maps no direction to zero, MUD and LS are the parameters that produced the data, whatever the initial distribution.", "all maps (rectangular, rank deficient), offsets, attainable data, means, positive definite covariances and alpha > 0", "Equivalences over all problems.", B+":LinearGaussianProblem.solve")
p("The units of the measurements, sensors and times do not matter", "If data, measurements and std_dev of a SpatioTemporalProblem are expressed in another unit (a non-zero factor, and an offset for each observation), and the coordinates of sensors and times in any other, then mud_problem gives the same density problem or the same exception, for every selection, method, number of components, data and sample weights; and get_closest_to_measurements returns the same parameters.", "all problems, units, offsets, masks (index lists, boolean arrays, slices), methods and weights", "Two programs are compared on all problems.", B+":SpatioTemporalProblem.mud_problem", B+":SpatioTemporalProblem.get_closest_to_measurements")
p("The units of the observations do not matter in weighted mean errors", "(a) wme returns the same for predictions, data and standard deviation in another unit (a non-zero factor and an offset for each observation); without a standard deviation the same holds for one positive factor and one offset. (b) A linear WME problem is the same if each observation of each quantity of interest (operator row, datum and standard deviation) is expressed in a unit of its own.", "all sizes, predictions, data, operators, standard deviations, units and offsets", "Two runs are compared on all inputs.", F+":wme", U+":transform_linear_map", B+":LinearWMEProblem.__init__")
p("A repeated sample counts as one sample with the sum of the weights", "Samples of a DensityProblem that are equal (same parameters, same output) can be replaced by one sample whose weight is the sum of theirs: expected_ratio and mud_point return the same.", "all problems, groupings of equal samples, weights, distributions whose density depends on the row alone, predicted densities that are nowhere zero", "Two runs are compared on all inputs.", B+":DensityProblem.expected_ratio", B+":DensityProblem.mud_point", B+":DensityProblem.set_weights")
out=os.path.join(os.path.dirname(__file__),"..","properties.jsonl")
if __name__=="__main__":
    with open(out,"w") as f:
        for q in props: f.write(json.dumps(q)+"\n")
    print(len(props))
