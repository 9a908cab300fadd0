{"id": "C01", "title": "MUD point reproduces the data", "statement": "LinearGaussianProblem(A,b,y,mean_i,cov_i).solve('mud') returns a point x with A x + b = y whenever the data are attainable; in particular whenever A has full row rank and cov_i is positive definite. When they are not attainable, A x + b is the point of the attainable set closest to y in the Euclidean norm.", "quantifier": "all dimensions, all A, b, y, mean_i, all symmetric positive semidefinite cov_i, all alpha > 0, all cov_o", "why_tests_cant": "the unit tests solve random 2x2 systems; the claim is about every size, rank and covariance", "anchors": ["src/mud/base.py:LinearGaussianProblem.solve", "src/mud/funs.py:mud_sol"]}
{"id": "C02", "title": "MUD point is the nearest data-consistent point to the initial mean", "statement": "Among all x with A x + b = y the MUD point is the unique minimiser of (x-mean_i)^T cov_i^-1 (x-mean_i): the estimate differs from the initial mean only in data-informed directions.", "quantifier": "all dimensions, all A, b, y with an exact solution, all positive definite cov_i, all competitors x", "why_tests_cant": "a minimum over infinitely many competitors cannot be sampled", "anchors": ["src/mud/base.py:LinearGaussianProblem.solve"]}
{"id": "C03", "title": "MUD point ignores the regularisation weight and the data covariance", "statement": "The MUD point is the same for every alpha > 0 and for every cov_o (unlike the MAP point).", "quantifier": "all problems, all alpha > 0, all cov_o", "why_tests_cant": "tests only use alpha = 1 and cov_o = I", "anchors": ["src/mud/base.py:LinearGaussianProblem.solve"]}
{"id": "C04", "title": "The two MUD formulas agree", "statement": "solve('mud') and solve('mud_alt') (and mud_sol / mud_sol_with_cov) return the same point whenever A cov_i A^T and cov_o are invertible; without that they may differ.", "quantifier": "all problems with invertible predicted and observed covariance", "why_tests_cant": "the test compares the two on one random square system", "anchors": ["src/mud/base.py:LinearGaussianProblem.solve", "src/mud/funs.py:mud_sol_with_cov"]}
{"id": "C05", "title": "Push-forward of the updated covariance is the data covariance", "statement": "A @ updated_cov(A, init_cov, data_cov) @ A^T = data_cov when the predicted covariance is invertible: the updated Gaussian is data-consistent.", "quantifier": "all dimensions, all A, symmetric init_cov with invertible A init_cov A^T, all data_cov", "why_tests_cant": "tests check a handful of identity-like matrices", "anchors": ["src/mud/funs.py:updated_cov", "src/mud/base.py:LinearGaussianProblem.updated_cov"]}
{"id": "C06", "title": "Updated covariance is a covariance", "statement": "updated_cov returns a symmetric positive semidefinite matrix whenever init_cov and data_cov are, for any A (also rank deficient).", "quantifier": "all dimensions, all A, all positive semidefinite init_cov and data_cov", "why_tests_cant": "definiteness is a statement over all directions and all inputs", "anchors": ["src/mud/funs.py:updated_cov", "src/mud/base.py:LinearGaussianProblem.updated_cov"]}
{"id": "C07", "title": "Updated covariance equals the documented closed form", "statement": "updated_cov equals inv(A^T (inv(data_cov) - inv(A init_cov A^T)) A + inv(init_cov)) whenever the inverses in that formula exist.", "quantifier": "all A, positive definite init_cov and data_cov with A of full row rank", "why_tests_cant": "an algebraic identity (Hua/Woodbury) over all matrices", "anchors": ["src/mud/funs.py:updated_cov", "src/mud/base.py:LinearGaussianProblem.updated_cov"]}
{"id": "C08", "title": "MAP point minimises the regularised misfit", "statement": "solve('map') is the unique minimiser over all x of (Ax+b-y)^T cov_o^-1 (Ax+b-y) + (x-mean_i)^T (alpha cov_i)^-1 (x-mean_i).", "quantifier": "all dimensions, all A, b, y, mean_i, positive definite cov_i, cov_o, alpha > 0, all competitors x", "why_tests_cant": "global optimality over a continuum", "anchors": ["src/mud/base.py:LinearGaussianProblem.solve", "src/mud/funs.py:map_sol"]}
{"id": "C09", "title": "Posterior covariance shrinks the prior", "statement": "The covariance returned with the MAP point is symmetric positive definite, equals alpha*cov_i - alpha*cov_i A^T (A alpha cov_i A^T + cov_o)^-1 A alpha*cov_i, and never exceeds alpha*cov_i in the positive semidefinite order.", "quantifier": "all dimensions, all positive definite cov_i, cov_o, alpha > 0", "why_tests_cant": "order between matrices quantifies over every direction", "anchors": ["src/mud/base.py:LinearGaussianProblem.solve", "src/mud/funs.py:map_sol_with_cov"]}
{"id": "C10", "title": "Least-squares solution is optimal and of minimum norm", "statement": "solve('ls') minimises |A x - (y-b)| over all x and has the smallest norm among the minimisers.", "quantifier": "all dimensions, ranks, A, b, y, all competitors x", "why_tests_cant": "global optimality over a continuum, all ranks", "anchors": ["src/mud/base.py:LinearGaussianProblem.solve"]}
{"id": "C11", "title": "Solving does not change the problem", "statement": "solve(method) leaves A, b, y, mean_i, cov_i, cov_o, alpha untouched, so after any sequence of solve calls (any methods, any output_dim, also failing ones) a further solve returns what it would have returned on the fresh problem; solve('all') returns exactly the ('mud','map','ls') solutions.", "quantifier": "all problems and all finite histories of solve calls", "why_tests_cant": "histories are unbounded", "anchors": ["src/mud/base.py:LinearGaussianProblem.solve"]}
{"id": "C12", "title": "output_dim solves the leading sub-problem", "statement": "solve(method, output_dim=k) returns what solve(method) returns on the problem made of the first k rows of A, b, y and leading k-by-k block of cov_o.", "quantifier": "all problems, all methods, all k", "why_tests_cant": "tests never pass output_dim", "anchors": ["src/mud/base.py:LinearGaussianProblem.solve"]}
{"id": "C13", "title": "Constructor defaults and validation", "statement": "Omitted b, y, mean_i are zero, omitted cov_i, cov_o are identities, a 1-D A is one row; construction fails with ValueError exactly when y does not have one entry per row of A.", "quantifier": "all inputs of one or two dimensions", "why_tests_cant": "tests only construct well-shaped problems", "anchors": ["src/mud/base.py:LinearGaussianProblem.__init__"]}
{"id": "C14", "title": "Estimates are equivariant under change of units", "statement": "Re-expressing parameters through any invertible T (A T^-1, T mean_i, T cov_i T^T) maps the MUD and MAP points by T; adding the same offset to b and y changes nothing; re-scaling the observations by any invertible D (D A, D b, D y) leaves the MUD point unchanged when A cov_i A^T is invertible.", "quantifier": "all problems, all invertible T, D, all offsets", "why_tests_cant": "quantifies over all linear re-parameterisations", "anchors": ["src/mud/base.py:LinearGaussianProblem.solve"]}
{"id": "C15", "title": "compute_functionals is consistent with the solver", "statement": "The functional terms are non-negative, 'bayes' = 'data' + 'reg', 'dc' = 'bayes' - 'dc_term' >= 0, and the MAP / MUD points minimise 'bayes' / 'dc'.", "quantifier": "all problems, all evaluation points", "why_tests_cant": "tests never evaluate the functionals of the class", "anchors": ["src/mud/base.py:LinearGaussianProblem.compute_functionals"]}
{"id": "C16", "title": "An epoch visits each row and satisfies it", "statement": "performEpoch returns a chain that starts at the initial mean, has one further entry per visited index, and entry k+1 satisfies equation idx[k] exactly (when that row is not annihilated by the covariance).", "quantifier": "all A, b, y, means, covariances, all index sequences", "why_tests_cant": "sequences of any length and order", "anchors": ["src/mud/funs.py:performEpoch"]}
{"id": "C17", "title": "Epoch chaining", "statement": "iterate(num_epochs=n) returns the concatenation of max(n,1) epochs, each starting where the previous one ended; its length is max(n,1)*(len(idx)+1).", "quantifier": "all epoch counts and index sequences", "why_tests_cant": "unbounded number of epochs", "anchors": ["src/mud/funs.py:iterate"]}
{"id": "C18", "title": "Iteration never moves away from a solution", "statement": "For every exact solution x* of A x + b = y the distance (x_k - x*)^T cov^-1 (x_k - x*) is non-increasing along the whole chain of iterate, and a chain started at a solution stays there.", "quantifier": "all consistent systems, index sequences, epoch counts, solutions x*", "why_tests_cant": "a monotonicity claim over unbounded iterations", "anchors": ["src/mud/funs.py:iterate", "src/mud/funs.py:performEpoch"]}
{"id": "C19", "title": "Iteration converges to the joint MUD point", "statement": "As num_epochs grows the last point of iterate tends to mud_sol(A,b,y,mean,cov), the MUD point of the whole system, for every consistent system in which every row is visited.", "quantifier": "all consistent systems with positive definite covariance, all index orders covering all rows", "why_tests_cant": "a limit statement", "anchors": ["src/mud/funs.py:iterate", "src/mud/funs.py:mud_sol"]}
{"id": "C20", "title": "IterativeLinearProblem.solve / iter_lin_solve solve the problem", "statement": "IterativeLinearProblem(...).solve(num_epochs) and iter_lin_solve(...) return the last point of the chain of row-by-row MUD solutions.", "quantifier": "all problems, epoch counts, index orders", "why_tests_cant": "no test calls them", "anchors": ["src/mud/base.py:IterativeLinearProblem.solve", "src/mud/funs.py:iter_lin_solve"]}
{"id": "C21", "title": "Weighted mean error functional", "statement": "wme(predictions, data, sd)[i] = (1/(sd sqrt N)) * sum_j (predictions[i,j]-data[j]); it is 0 when the predictions equal the data, affine in the predictions, independent of the order of the observations, and uses the population standard deviation of the data when sd is omitted.", "quantifier": "all sample counts, feature counts, predictions, data, sd != 0", "why_tests_cant": "tests use constant residuals only", "anchors": ["src/mud/funs.py:wme"]}
{"id": "C22", "title": "wme rejects mismatched dimensions", "statement": "wme raises ValueError exactly when the number of prediction columns differs from len(data); a 1-D prediction is a single sample; data of the documented shape (n_features, 1) is handled like 1-D data.", "quantifier": "all shapes", "why_tests_cant": "tests use matching 1-D data only (a TODO in the tests says so)", "anchors": ["src/mud/funs.py:wme"]}
{"id": "C23", "title": "transform_linear_map yields the WME map", "statement": "For the returned (A, b) and every x: A x + b = (1/sqrt N) * sum_i (M_i x - d_i)/std_i; it vanishes at any x that reproduces the data.", "quantifier": "all operators, data, admissible std, all x", "why_tests_cant": "doctests evaluate one x on one matrix", "anchors": ["src/mud/util.py:transform_linear_map", "src/mud/base.py:LinearWMEProblem._transform_linear_map"]}
{"id": "C24", "title": "Repeated observations are the stacked problem", "statement": "A one-row operator with N data gives the same (A, b) as the operator with that row stacked N times.", "quantifier": "all rows, all N >= 2, all data, std > 1e-14", "why_tests_cant": "tested on one example", "anchors": ["src/mud/util.py:transform_linear_map"]}
{"id": "C25", "title": "transform_linear_map input validation", "statement": "It rejects a row/data count mismatch, a std of the wrong length, a std that rounds to 0 at 14 decimals, a vector std for repeated observations and std <= 1e-14 for repeated observations, and accepts everything else of the right type.", "quantifier": "all shapes and std values", "why_tests_cant": "boundary values are not tested", "anchors": ["src/mud/util.py:transform_linear_map", "src/mud/base.py:LinearWMEProblem._transform_linear_map"]}
{"id": "C26", "title": "Linear WME problem: MUD point zeroes every weighted mean error", "statement": "LinearWMEProblem(operators, data, sigma).solve('mud') returns x with sum_i (M^k_i x - d^k_i)/sigma^k_i = 0 for each QoI k when the stacked map has full row rank; for repeated measurements this says M^k x is the sample mean of the data.", "quantifier": "all numbers of QoI, operators, data, sigmas, covariances", "why_tests_cant": "tests only look at .y", "anchors": ["src/mud/base.py:LinearWMEProblem.__init__", "src/mud/util.py:transform_linear_setup"]}
{"id": "C27", "title": "Updated variance of a repeatedly measured quantity is sigma^2/N", "statement": "For one repeatedly measured row M with N data of standard deviation sigma, M updated_cov M^T = sigma^2/N (cov_o default): more data, less variance.", "quantifier": "all rows M, covariances with M cov M^T > 0, N >= 1, sigma > 1e-14", "why_tests_cant": "shown graphically for four N in an example", "anchors": ["src/mud/base.py:LinearWMEProblem", "src/mud/base.py:LinearGaussianProblem.updated_cov"]}
{"id": "C28", "title": "MUD point is a sample of maximal updated density", "statement": "DensityProblem.mud_point()/estimate() returns X[m] for the first index m at which initial(X_m) * weight_m * observed(y_m)/predicted(y_m) is maximal.", "quantifier": "all samples, weights, densities, all reachable states", "why_tests_cant": "tests only round one estimate to one decimal", "anchors": ["src/mud/base.py:DensityProblem.mud_point", "src/mud/base.py:DensityProblem.fit"]}
{"id": "C29", "title": "Estimates always reflect the current settings", "statement": "After any history of set_weights / set_observed / set_initial / set_predicted / fit / estimate calls the next estimate is the one for the current weights and distributions.", "quantifier": "all finite histories of API calls", "why_tests_cant": "cache invalidation is a property of histories", "anchors": ["src/mud/base.py:DensityProblem"]}
{"id": "C30", "title": "Only relative weights matter", "statement": "Multiplying all sample weights by the same positive constant changes neither the MUD point nor expected_ratio.", "quantifier": "all problems, all constants > 0", "why_tests_cant": "quantifies over all weights and constants", "anchors": ["src/mud/base.py:DensityProblem.set_weights", "src/mud/base.py:DensityProblem.expected_ratio"]}
{"id": "C31", "title": "Stacked weights combine by multiplication", "statement": "A 2-D weights array acts like the 1-D array of column products, independently of the order of its rows; unit weights act like no weights; normalize=True scales the combined weights to Euclidean norm 1; a wrong number of columns is rejected.", "quantifier": "all numbers of rows and samples, all weights", "why_tests_cant": "tests use a single row of ones", "anchors": ["src/mud/base.py:DensityProblem.set_weights"]}
{"id": "C32", "title": "Zero-weight samples are never selected", "statement": "If the predicted density is not 0 at any sample (it never is with the default estimate), a sample with weight 0 is not returned as the MUD point as long as some sample has a positive updated density. Where the predicted density is 0 the quotient is nan and the guarantee is lost.", "quantifier": "all problems with finite densities and non-zero predicted density at every sample (0 * inf = nan would win the argmax)", "why_tests_cant": "quantifies over all configurations", "anchors": ["src/mud/base.py:DensityProblem.mud_point"]}
{"id": "C33", "title": "Sample order is irrelevant", "statement": "Permuting the samples (rows of X and y together with the weights) does not change the MUD point when the maximiser is unique, nor expected_ratio.", "quantifier": "all permutations of all sample sets", "why_tests_cant": "factorially many orders", "anchors": ["src/mud/base.py:DensityProblem.mud_point", "src/mud/base.py:DensityProblem.expected_ratio"]}
{"id": "C34", "title": "expected_ratio is the weighted mean of observed/predicted", "statement": "expected_ratio() = sum(w r)/sum(w), lies between the smallest and the largest ratio for non-negative weights, and is 1 when observed and predicted densities coincide on the samples; it fails when the weights sum to 0.", "quantifier": "all problems, weights with non-zero sum", "why_tests_cant": "tests check one number to 20 percent", "anchors": ["src/mud/base.py:DensityProblem.expected_ratio"]}
{"id": "C35", "title": "Default initial: MUD point inside the domain", "statement": "With the default (uniform) initial distribution the MUD point lies in the domain whenever the predicted density is not 0 at any sample and some sample has positive updated density.", "quantifier": "all samples, domains, finite observed and finite non-zero predicted densities", "why_tests_cant": "all inputs", "anchors": ["src/mud/base.py:DensityProblem.set_initial", "src/mud/base.py:DensityProblem.mud_point"]}
{"id": "C36", "title": "fit_domain bounds the samples", "statement": "fit_domain(x, pad_ratio) returns [min - pad_ratio*range, max + pad_ratio*range] per column (pad_ratio >= 0), so it contains every sample; for integer arrays the bounds are truncated toward zero and still contain every sample.", "quantifier": "all arrays, all pad ratios >= 0", "why_tests_cant": "doctests show two arrays", "anchors": ["src/mud/util.py:fit_domain", "src/mud/base.py:DensityProblem.__init__"]}
{"id": "C37", "title": "Plotting does not change the problem", "statement": "plot_param_space() leaves the domain (and therefore later default initial distributions and estimates) unchanged.", "quantifier": "all problems, all numbers of plot calls", "why_tests_cant": "aliasing across calls", "anchors": ["src/mud/base.py:DensityProblem.plot_param_space", "src/mud/util.py:fit_domain"]}
{"id": "C38", "title": "pad_domain controls the fitted domain", "statement": "When no domain is given DensityProblem(X, y, pad_domain=r) uses the sample bounding box padded by the ratio r.", "quantifier": "all X, all r", "why_tests_cant": "never tested", "anchors": ["src/mud/base.py:DensityProblem.__init__"]}
{"id": "C39", "title": "One-dimensional X means samples of one parameter", "statement": "A 1-D X of length n passed to DensityProblem or BayesProblem is treated as n samples of a single parameter.", "quantifier": "all 1-D inputs", "why_tests_cant": "tests pass 2-D arrays", "anchors": ["src/mud/base.py:DensityProblem.__init__", "src/mud/util.py:set_shape"]}
{"id": "C40", "title": "MAP sample maximises the posterior", "statement": "BayesProblem.map_point()/estimate() returns X[m] for the first index maximising prior * likelihood (or log prior + log likelihood in log mode), unless these values sum to 0, in which case it raises.", "quantifier": "all samples, densities, reachable states", "why_tests_cant": "tests round one estimate", "anchors": ["src/mud/base.py:BayesProblem.map_point", "src/mud/base.py:BayesProblem.fit"]}
{"id": "C41", "title": "Bayes estimates always reflect the current settings", "statement": "After any history of set_prior / set_likelihood / fit / estimate calls the next estimate is the one for the current prior and likelihood.", "quantifier": "all finite histories", "why_tests_cant": "cache invalidation is a property of histories", "anchors": ["src/mud/base.py:BayesProblem"]}
{"id": "C42", "title": "Log and plain likelihood give the same MAP point", "statement": "set_likelihood(d, log=True) and set_likelihood(d) lead to the same map_point.", "quantifier": "all samples and densities", "why_tests_cant": "monotonicity over all inputs", "anchors": ["src/mud/base.py:BayesProblem.set_likelihood", "src/mud/base.py:BayesProblem.fit"]}
{"id": "C43", "title": "Degenerate posterior is reported", "statement": "fit raises ValueError instead of returning an arbitrary sample when the posterior vanishes at all samples, and only then.", "quantifier": "all samples and densities, both log modes", "why_tests_cant": "boundary case over all inputs", "anchors": ["src/mud/base.py:BayesProblem.fit"]}
{"id": "C44", "title": "Inner-product norm", "statement": "inner_product(X, C) returns, per column, x^T C^-1 x: non-negative, 0 exactly for the zero column, and raises for singular C.", "quantifier": "all dimensions, positive definite C, all X", "why_tests_cant": "tests use scaled identities", "anchors": ["src/mud/norm.py:inner_product"]}
{"id": "C45", "title": "Full functional is a non-negative data-consistent objective", "statement": "full_functional = norm_input + norm_data - norm_predicted is non-negative for positive definite covariances and full-row-rank operators, vanishes exactly at the MUD point (so at the initial mean when that reproduces the data), and a scalar covariance c means c*I.", "quantifier": "all full-row-rank operators, inputs, means, positive definite covariances; data of shape (d,1) and observed mean of shape (1,d), for one observation also 1-D (1-D arrays with several observations are C73)", "why_tests_cant": "tests evaluate random 2-to-1 maps", "anchors": ["src/mud/norm.py:full_functional", "src/mud/norm.py:norm_input", "src/mud/norm.py:norm_data", "src/mud/norm.py:norm_predicted"]}
{"id": "C46", "title": "full_functional default observed mean", "statement": "full_functional may be called without observed_mean (default 0).", "quantifier": "all inputs", "why_tests_cant": "tests always pass it", "anchors": ["src/mud/norm.py:full_functional", "src/mud/norm.py:norm_data"]}
{"id": "C47", "title": "sample_data without masks is the identity", "statement": "sample_data() returns the stored parameters, times, sensors, data and the flattened measurements unchanged.", "quantifier": "all consistent problems with non-empty data axes", "why_tests_cant": "all sizes", "anchors": ["src/mud/base.py:SpatioTemporalProblem.sample_data"]}
{"id": "C48", "title": "sample_data masks select exactly the requested entries", "statement": "With sample, time and sensor selections, entry (i, s*T+t) of the returned data is data[samples[i], sensors[s]*n_ts + times[t]], and measurements are selected in the same order, so data columns and measurements stay aligned.", "quantifier": "all sizes, all non-empty selections given as index lists or boolean masks", "why_tests_cant": "index arithmetic over all sizes and masks", "anchors": ["src/mud/base.py:SpatioTemporalProblem.sample_data"]}
{"id": "C49", "title": "Selecting sensors keeps one row per sample", "statement": "sample_data(sensors_mask=...) returns one data row per selected sample.", "quantifier": "all sensor layouts, all selections", "why_tests_cant": "tests use 2-D sensor coordinates only", "anchors": ["src/mud/base.py:SpatioTemporalProblem.sample_data"]}
{"id": "C50", "title": "Data setter validates and completes the layout", "statement": "Assigning data of shape (n, k), (n,) or (n, s, t) stores an (n, k) array whose column count equals n_sensors*n_ts (3-D data flattened with time fastest), fills in missing sensors/times, and raises ValueError exactly on a mismatch.", "quantifier": "all shapes (at least one sample for 3-D data), all prior sensors/times settings", "why_tests_cant": "case analysis over all shapes", "anchors": ["src/mud/base.py:SpatioTemporalProblem.data"]}
{"id": "C51", "title": "Domain and parameter samples stay compatible", "statement": "After any sequence of successful assignments to domain and lam, the domain has one row per parameter column and contains every sample.", "quantifier": "all sequences of assignments", "why_tests_cant": "histories of setters", "anchors": ["src/mud/base.py:SpatioTemporalProblem.domain", "src/mud/base.py:SpatioTemporalProblem.lam"]}
{"id": "C52", "title": "lam_ref lies in the domain", "statement": "Assigning lam_ref succeeds only if a domain is set and every component lies in its range; a failing assignment leaves the old value.", "quantifier": "all values and domains", "why_tests_cant": "all inputs", "anchors": ["src/mud/base.py:SpatioTemporalProblem.lam_ref"]}
{"id": "C53", "title": "Closest sample", "statement": "get_closest_to_measurements (get_closest_to_true_vals) returns the parameters of the first sample whose data are nearest in Euclidean norm to the measurements (true values).", "quantifier": "all data sets and masks", "why_tests_cant": "minimum over all samples, all inputs", "anchors": ["src/mud/base.py:SpatioTemporalProblem.get_closest_to_measurements", "src/mud/base.py:SpatioTemporalProblem.get_closest_to_true_vals"]}
{"id": "C54", "title": "WME map of a spatio-temporal problem", "statement": "mud_problem(method='wme') uses the weighted mean error of the residuals, i.e. (up to sign) wme(data, measurements, std_dev).", "quantifier": "all problems", "why_tests_cant": "tests never use method='wme'", "anchors": ["src/mud/base.py:SpatioTemporalProblem.mud_problem", "src/mud/funs.py:wme"]}
{"id": "C55", "title": "Unknown QoI maps are rejected with ValueError", "statement": "mud_problem(method=m) raises ValueError for every m other than 'wme', 'pca', 'svd'.", "quantifier": "all method names", "why_tests_cant": "never tested", "anchors": ["src/mud/base.py:SpatioTemporalProblem.mud_problem"]}
{"id": "C56", "title": "data_weights weight the observations", "statement": "mud_problem(data_weights=w) multiplies the residual of observation j by w_j/|w|.", "quantifier": "all problems and weights of the data dimension", "why_tests_cant": "never tested", "anchors": ["src/mud/base.py:SpatioTemporalProblem.mud_problem"]}
{"id": "C57", "title": "load reads each field from its mapped key", "statement": "load(ds, f=k) assigns attribute f from ds[k], skips fields that are absent, and uses non-string values directly.", "quantifier": "all dictionaries and keyword mappings", "why_tests_cant": "all dictionaries", "anchors": ["src/mud/base.py:SpatioTemporalProblem.load"]}
{"id": "C58", "title": "data_prob solves with its defaults", "statement": "data_prob(lam, qoi, ...) with default sample_dist returns a solved DensityProblem.", "quantifier": "all inputs", "why_tests_cant": "no test calls it", "anchors": ["src/mud/funs.py:data_prob", "src/mud/base.py:SpatioTemporalProblem.sample_dist"]}
{"id": "C59", "title": "validate reports missing attributes", "statement": "validate() raises ValueError naming exactly the required attributes that are unset and passes otherwise, for all four flag combinations.", "quantifier": "all states and flags", "why_tests_cant": "never tested", "anchors": ["src/mud/base.py:SpatioTemporalProblem.validate"]}
{"id": "C60", "title": "null_space", "statement": "null_space(A) returns orthonormal columns z with |A z| <= rcond*s_max each, spanning exactly the kernel of A when the discarded singular values are 0.", "quantifier": "all matrices and tolerances", "why_tests_cant": "doctests use two matrices", "anchors": ["src/mud/util.py:null_space"]}
{"id": "C61", "title": "rank_decomposition", "statement": "rank_decomposition(A)[k] is the rank-(k+1) truncation of A; the last entry is A.", "quantifier": "all matrices", "why_tests_cant": "never tested", "anchors": ["src/mud/util.py:rank_decomposition"]}
{"id": "C62", "title": "Unit mesh", "statement": "make_2d_unit_mesh(N, w) lists each of the N^2 grid points (c*w/(N-1), r*w/(N-1)) exactly once, row-major with the first coordinate fastest, all inside [0,w]^2.", "quantifier": "all N, w", "why_tests_cant": "doctest shows N = 3", "anchors": ["src/mud/util.py:make_2d_unit_mesh", "src/mud/plot.py:make_2d_unit_mesh"]}
{"id": "C63", "title": "n-d mesh grid", "statement": "build_nd_mesh_grid(domain, aff) lists (aff-1)^n points, all inside the half-open box of the domain, covering every combination of grid coordinates.", "quantifier": "all dimensions, domains, aff", "why_tests_cant": "doctest shows n = 1", "anchors": ["src/mud/plot.py:build_nd_mesh_grid"]}
{"id": "C64", "title": "plot_dist plots the marginal of the requested variable", "statement": "plot_dist(dist, domain, idx=i) draws the marginal density of coordinate i.", "quantifier": "all dimensions, densities, indices", "why_tests_cant": "tests plot 1-D problems", "anchors": ["src/mud/plot.py:plot_dist"]}
{"id": "C65", "title": "Equipment tolerance to standard deviation", "statement": "For sigma = std_from_equipment(tol, p), a centred normal with standard deviation sigma falls within tol with probability p.", "quantifier": "all tol > 0, p in (0,1)", "why_tests_cant": "tests check an inequality for four tolerances", "anchors": ["src/mud/util.py:std_from_equipment"]}
{"id": "C66", "title": "add_noise", "statement": "add_noise(signal, sd, seed) returns an array of the signal's shape, equal to signal + sd*standard normal draws; with a seed the result does not depend on earlier random calls.", "quantifier": "all signals, sd, seeds, generator states", "why_tests_cant": "tested on one vector and seed", "anchors": ["src/mud/util.py:add_noise"]}
{"id": "C67", "title": "mud_problem / map_problem observation count", "statement": "The functional wrappers use exactly the first num_obs observations (all by default), reject num_obs < 1 or > dim with ValueError, and a split that is one full index block gives the unsplit problem.", "quantifier": "all shapes, num_obs, splits into nonempty blocks of nonnegative indices", "why_tests_cant": "no test calls them", "anchors": ["src/mud/funs.py:mud_problem", "src/mud/funs.py:map_problem"]}
{"id": "C68", "title": "Contour lines pass through the reference point", "statement": "plot_contours draws, for each row of A, a segment of the solution contour through the reference point.", "quantifier": "all rows, reference points, widths", "why_tests_cant": "plots are not inspected by tests", "anchors": ["src/mud/base.py:LinearGaussianProblem.plot_contours", "src/mud/plot.py:plot_contours"]}
{"id": "C69", "title": "plot_params_2d plots the requested coordinates", "statement": "plot_params_2d(x_1, x_2, y) scatters columns x_1 and x_2 of the samples coloured by column y, and rejects out-of-range indices.", "quantifier": "all problems and indices", "why_tests_cant": "plots are not inspected by tests", "anchors": ["src/mud/base.py:DensityProblem.plot_params_2d"]}
{"id": "C70", "title": "Piecewise-linear boundary expression", "statement": "The expression built by piecewise_eval_from_vector(u) evaluates to the piecewise-linear interpolant through the knots (0,0), (i/(n+1), u_i) for i=1..n, (1,1) on [0,1), and to 0 outside [0,1).", "quantifier": "all knot vectors and evaluation points", "why_tests_cant": "only run through FEniCS", "anchors": ["src/mud/examples/fenics.py:piecewise_eval_from_vector"]}
{"id": "C71", "title": "print_res filtering", "statement": "print_res(res, fields, search, match) lists, in order, exactly the records whose search column matches, restricted to the requested fields.", "quantifier": "all record lists, fields and filters", "why_tests_cant": "doctests show two records", "anchors": ["src/mud/examples/examples.py:print_res"]}
{"id": "C72", "title": "netCDF data sets are loaded with xarray", "statement": "load('file.nc') reads the file with xarray when xarray is installed and otherwise unpickles it; a missing file raises FileNotFoundError.", "quantifier": "all paths, both environments", "why_tests_cant": "environment dependent", "anchors": ["src/mud/base.py:SpatioTemporalProblem.load"]}
{"id": "C73", "title": "1-D data in the full functional", "statement": "full_functional accepts data and observed_mean as 1-D arrays of length d and returns one value per sample, 0 for a sample equal to an initial mean that reproduces the data.", "quantifier": "all numbers of observations", "why_tests_cant": "tests use a single observation", "anchors": ["src/mud/norm.py:norm_data", "src/mud/norm.py:full_functional"]}
{"id": "C74", "title": "Synthetic measurements", "statement": "measurements_from_reference(ref, std_dev, seed) stores ref_j + std_dev*z_j as measurement j for the generator's next standard normal draws z (from the seeded state if a seed is given), remembers ref and std_dev and changes nothing else; without a reference or standard deviation it raises AttributeError and changes nothing.", "quantifier": "all problems with a layout, references of matching size and any shape, seeds, generator states", "why_tests_cant": "random numbers; tests fix one seed", "anchors": ["src/mud/base.py:SpatioTemporalProblem.measurements_from_reference", "src/mud/util.py:add_noise"]}
{"id": "C75", "title": "Loading a complete data set gives a problem ready for inversion", "statement": "load(ds) on a fresh object with consistent domain, sensors, times, std_dev, measurements, lam and data stores exactly these arrays (domain as (p,2), measurements as a column) so that mud_problem can be called; measurements without a sensor/time layout cannot be loaded (AttributeError).", "quantifier": "all consistent data sets, all sizes", "why_tests_cant": "tests load one file", "anchors": ["src/mud/base.py:SpatioTemporalProblem.load", "src/mud/base.py:SpatioTemporalProblem.mud_problem"]}
{"id": "C76", "title": "Learned QoI maps project the residuals", "statement": "mud_problem('svd'|'pca', num_components=c) returns a problem whose i-th sample's QoI consists of the projections of its scaled residual vector on the first c singular vectors (principal components); keeping all singular vectors preserves Euclidean lengths.", "quantifier": "all ready problems, all c, all decompositions", "why_tests_cant": "tests only check shapes", "anchors": ["src/mud/base.py:SpatioTemporalProblem.mud_problem", "src/mud/preprocessing.py:svd", "src/mud/preprocessing.py:pca"]}
{"id": "C77", "title": "Functional contour plots show the functional", "statement": "plot_fun_contours(terms, N, r) draws, over the N x N grid of [0,r]^2, the surface whose height at a grid point is the value compute_functionals returns for that point and term; asking for all terms at once or passing a mesh that does not have N^2 points fails.", "quantifier": "all two-parameter problems, all single terms, all N and r", "why_tests_cant": "plots are not inspected by tests", "anchors": ["src/mud/base.py:LinearGaussianProblem.plot_fun_contours", "src/mud/util.py:make_2d_unit_mesh"]}
{"id": "C78", "title": "plot_sol marks the solution", "statement": "plot_sol(point) marks the first two coordinates of the solution solve(point) returns and draws the line to it from the initial mean (unless ln_opts=None); plot_sol('initial') marks the initial mean only.", "quantifier": "all problems with at least two parameters for which solve(point) succeeds", "why_tests_cant": "plots are not inspected by tests", "anchors": ["src/mud/base.py:LinearGaussianProblem.plot_sol"]}
{"id": "C79", "title": "Default predicted density is a positive probability density", "statement": "set_predicted() without a distribution, with either built-in bandwidth rule, stores at every sample the value there of one density on the output space that is everywhere positive and has total mass 1 (the weighted Gaussian kernel estimate scipy builds from the outputs and current weights); it returns exactly when there are at least two numbers, the weights have one sign, more than one sample has non-zero weight and the outputs are not confined to a hyperplane; the updated density is then well defined at every sample and mud_point maximises it.", "quantifier": "all output clouds of any dimension and size, all nonnegative weights, both bandwidth rules", "why_tests_cant": "integral over the whole output space; arbitrary clouds", "anchors": ["src/mud/base.py:DensityProblem.set_predicted", "src/mud/base.py:DensityProblem.fit", "src/mud/base.py:DensityProblem.mud_point"]}
{"id": "C80", "title": "Units of outputs and parameters do not matter", "statement": "Re-expressing outputs by an invertible affine change y -> T y + c and parameters in any other coordinates, with the distributions expressed in the new units, and running the same call history (with the default kernel predicted density) yields the same chosen sample and the same expected ratio.", "quantifier": "all sample clouds, invertible affine maps, weights", "why_tests_cant": "all unit changes", "anchors": ["src/mud/base.py:DensityProblem.set_predicted", "src/mud/base.py:DensityProblem.fit", "src/mud/base.py:DensityProblem.mud_point", "src/mud/base.py:DensityProblem.expected_ratio"]}
{"id": "C81", "title": "A zero-weight sample is the same as leaving it out", "statement": "Adding a sample with weight 0 to a density problem (default kernel predicted density, observed and initial distributions given, some sample with positive updated density) changes neither the MUD point nor the expected ratio.", "quantifier": "all sample clouds, all positions of the extra sample, all weights", "why_tests_cant": "all clouds and positions", "anchors": ["src/mud/base.py:DensityProblem.set_weights", "src/mud/base.py:DensityProblem.set_predicted", "src/mud/base.py:DensityProblem.mud_point", "src/mud/base.py:DensityProblem.expected_ratio"]}
{"id": "C82", "title": "More consistent outputs never hurt", "statement": "For data produced without noise by a reference parameter, solve('mud', output_dim=l) is at least as close to the reference (in the initial covariance's norm) as solve('mud', output_dim=k) for every k <= l, and equals it once the first l outputs determine the parameter; the same holds for 'ls' in the Euclidean norm.", "quantifier": "all linear problems with noiseless data and positive definite initial covariance, all k <= l", "why_tests_cant": "all dimensions and operators", "anchors": ["src/mud/base.py:LinearGaussianProblem.solve"]}
{"id": "C83", "title": "MUD and LS depend only on the set of data-consistent parameters", "statement": "Two linear problems with the same initial mean and covariance whose non-empty sets of parameters reproducing the data are equal have the same MUD point (and LS point): outputs may be reordered, repeated, rescaled, recombined or made redundant.", "quantifier": "all pairs of linear problems with equal non-empty solution sets", "why_tests_cant": "quantifies over pairs of problems", "anchors": ["src/mud/base.py:LinearGaussianProblem.solve"]}
{"id": "C84", "title": "Re-solving from the solution changes nothing", "statement": "The MUD point of the problem whose initial mean is replaced by the MUD point x is x, whether or not the data are attainable.", "quantifier": "all linear problems with positive semidefinite initial covariance", "why_tests_cant": "all problems", "anchors": ["src/mud/base.py:LinearGaussianProblem.solve"]}
{"id": "C85", "title": "MAP lies between the initial mean and MUD", "statement": "For attainable data the MAP point is within v'Cv/(4 alpha) of the MUD point in squared initial-covariance norm, with v independent of the noise C and of alpha, so it converges to the MUD point as alpha grows or the noise vanishes; and it is within alpha times the initial misfit of the initial mean.", "quantifier": "all linear problems, all positive definite C, all alpha > 0", "why_tests_cant": "limits", "anchors": ["src/mud/base.py:LinearGaussianProblem.solve"]}
{"id": "C86", "title": "random_linear_problem yields a consistent problem", "statement": "random_linear_problem returns a reference parameter and a problem whose operator, offset and reference are successive normal draws, whose data are exactly the reference's, whose initial covariance is the given one or a positive definite diagonal one with non-increasing entries of at least 1/2; its MUD point reproduces the data and is the reference if the operator is injective; with a seed the result does not depend on the generator's earlier state.", "quantifier": "all generators, dimensions, means, covariances, seeds", "why_tests_cant": "all draws and dimensions", "anchors": ["src/mud/examples/linear.py:random_linear_problem"]}
{"id": "C87", "title": "noisy_linear_data adds scaled noise to the reference data", "statement": "noisy_linear_data(M, ref, std, num_data) returns at entry i the value of row i (or of the only row) of M at the reference plus std_i times the generator's i-th next draw, and advances the generator by num_data draws; wrong lengths raise AssertionError before any draw.", "quantifier": "all operators, references, deviations, generators", "why_tests_cant": "all sizes and draws", "anchors": ["src/mud/examples/linear.py:noisy_linear_data"]}
{"id": "C88", "title": "rotation_map yields a solvable problem", "statement": "rotation_map(qnum, tol, b, ref, seed) returns data that are exactly the reference's under rows (sin t, cos t), t from 0 to pi, a positive definite initial covariance and a random mean, seeded by the given seed; for three or more outputs the MUD point and the limit of iterating over the outputs are the reference; rotation_map_trials runs.", "quantifier": "all qnum, references, offsets, seeds, generators", "why_tests_cant": "all sizes; limit of iterations", "anchors": ["src/mud/examples/linear.py:rotation_map", "src/mud/examples/linear.py:rotation_map_trials"]}
{"id": "C89", "title": "polynomial_1D_data simulates what it documents", "statement": "polynomial_1D_data returns the next num_samples variates of the initial distribution, their p-th powers, and as data mu if N = 1, otherwise N normal variates with mean mu and standard deviation sigma drawn after the samples.", "quantifier": "all generators, initial distributions, p, sizes, mu, sigma", "why_tests_cant": "all draws and sizes", "anchors": ["src/mud/examples/simple.py:polynomial_1D_data"]}
{"id": "C90", "title": "The 1-D density example recovers the data mean", "statement": "mud_point() of the problem returned by identity_1D_density_prob (analytical predicted density) is the first sample nearest to the mean of the simulated data. Without the analytical density the predicted density is the kernel estimate of the samples, and mud_point() is the first sample with the greatest value of initial density times observed density over that estimate.", "quantifier": "all generators, sizes, mu, sigma > 0, domains and initial densities positive at the samples", "why_tests_cant": "all samples", "anchors": ["src/mud/examples/simple.py:identity_1D_density_prob"]}
{"id": "C91", "title": "The 1-D Bayes example agrees with the density example", "statement": "map_point() of the problem returned by identity_1D_bayes_prob is the first sample nearest to the mean of the data; from the same generator state it is the point the density example returns.", "quantifier": "all generators, sizes, mu, sigma > 0, initial distributions, domains containing the samples", "why_tests_cant": "all samples", "anchors": ["src/mud/examples/simple.py:identity_1D_bayes_prob"]}
{"id": "C92", "title": "The updated density drawn over the parameter space is the current one", "statement": "DensityProblem.plot_param_space draws the current initial density, the kernel density estimate of the samples weighted with ratio times weights of the current settings, and a line at the MUD point of the current settings; without an initial distribution it raises AssertionError.", "quantifier": "all problems and all histories of set_*, fit, estimate and expected_ratio calls", "why_tests_cant": "all histories", "anchors": ["src/mud/base.py:DensityProblem.plot_param_space"]}
{"id": "C93", "title": "The densities drawn over the observable space are the current ones", "statement": "DensityProblem.plot_obs_space draws the current observed density, the predicted density of the current settings and the kernel density estimate of the data weighted with ratio times weights of the current settings; a range with the wrong number of rows raises ValueError.", "quantifier": "all problems and all histories of set_*, fit, estimate and expected_ratio calls", "why_tests_cant": "all histories", "anchors": ["src/mud/base.py:DensityProblem.plot_obs_space"]}
{"id": "C94", "title": "The posterior drawn over the parameter space is the current one", "statement": "BayesProblem.plot_param_space draws the current prior, a line at the MAP point of the current settings and a kernel density estimate of the samples in which a sample of larger posterior has a larger weight.", "quantifier": "all problems and all histories of set_prior, set_likelihood, fit and estimate calls, plain or log", "why_tests_cant": "all histories and posteriors", "anchors": ["src/mud/base.py:BayesProblem.plot_param_space"]}
{"id": "C95", "title": "The push-forward drawn over the observable space is the posterior's", "statement": "BayesProblem.plot_obs_space draws the current likelihood and the kernel density estimate of the data weighted with the posterior of the current settings; without a likelihood it raises ValueError.", "quantifier": "all problems and all histories of set_prior, set_likelihood, fit and estimate calls", "why_tests_cant": "all histories", "anchors": ["src/mud/base.py:BayesProblem.plot_obs_space"]}
{"id": "C96", "title": "get_errors returns the distances to the reference", "statement": "IterativeLinearProblem.get_errors(ref) returns for each computed point, in order, its Euclidean distance to ref.", "quantifier": "all problems, all histories of solve, get_errors and plot_chain_error calls, all references", "why_tests_cant": "all histories", "anchors": ["src/mud/base.py:IterativeLinearProblem.get_errors"]}
{"id": "C97", "title": "Chains and their errors can be drawn", "statement": "IterativeLinearProblem.plot_chain_error(ref) draws the values get_errors(ref) returns; plot_chain(ref) returns for chains of points with at least two coordinates.", "quantifier": "all objects and arguments", "why_tests_cant": "all inputs", "anchors": ["src/mud/base.py:IterativeLinearProblem.plot_chain", "src/mud/base.py:IterativeLinearProblem.plot_chain_error"]}
{"id": "C98", "title": "plot_ts shows the chosen sensor's series", "statement": "SpatioTemporalProblem.plot_ts draws the measured values of the chosen sensor at the selected times and the simulated series, data[i, sensor*n_ts + t] against times[t], of min(max_plot, n) selected samples chosen by the random generator.", "quantifier": "all ready problems with two-coordinate sensors, selections, sensors, max_plot, generators", "why_tests_cant": "all data, selections and random choices", "anchors": ["src/mud/base.py:SpatioTemporalProblem.plot_ts"]}
{"id": "C99", "title": "Sensor plots show each selected sensor with its value", "statement": "sensor_scatter_plot draws the selected sensors at their locations; sensor_contour_plot gives each selected sensor its own datum of the chosen sample.", "quantifier": "all ready problems with two-coordinate sensors, samples, selections", "why_tests_cant": "all data and selections", "anchors": ["src/mud/base.py:SpatioTemporalProblem.sensor_contour_plot", "src/mud/base.py:SpatioTemporalProblem.sensor_scatter_plot"]}
{"id": "C100", "title": "pca returns a principal component analysis of the standardised data", "statement": "pca rejects data that is not a non-empty 2-D array, or fewer rows or columns than components, with ValueError. Otherwise the components are orthonormal, the transformed data are the coordinates of the standardised data along them, with mean zero, uncorrelated and in the order of decreasing variance, and no other orthonormal directions carry more variance.", "quantifier": "all arrays, numbers of components, and every decomposition the library may compute", "why_tests_cant": "all data and every (non-unique) decomposition", "anchors": ["src/mud/preprocessing.py:pca"]}
{"id": "C101", "title": "svd returns a decomposition of the standardised data", "statement": "svd returns the singular value decomposition of the standardised data, honouring the documented keyword arguments, and rejects data that is not a non-empty 2-D array with ValueError.", "quantifier": "all arrays and keyword arguments", "why_tests_cant": "all data and every (non-unique) decomposition", "anchors": ["src/mud/preprocessing.py:svd"]}
{"id": "C102", "title": "pca and svd do not depend on the units of the columns", "statement": "Multiplying columns by positive numbers and adding constants to them changes neither the result of pca nor that of svd.", "quantifier": "all 2-D arrays and all positive affine changes of units per column", "why_tests_cant": "all data and unit changes", "anchors": ["src/mud/preprocessing.py:pca", "src/mud/preprocessing.py:svd"]}
{"id": "C103", "title": "The pca and svd reductions of mud_problem agree", "statement": "SpatioTemporalProblem.mud_problem with method pca and svd builds the same density problem up to the sign of each quantity of interest, the coordinates of the residuals along the principal directions, when the singular values are simple; too many components are rejected with ValueError for pca.", "quantifier": "all ready problems, numbers of components, decompositions", "why_tests_cant": "all data and every (non-unique) decomposition", "anchors": ["src/mud/base.py:SpatioTemporalProblem.mud_problem", "src/mud/preprocessing.py:pca", "src/mud/preprocessing.py:svd"]}
{"id": "C104", "title": "random_linear_wme_problem draws a problem of the requested sizes", "statement": "For num_qoi quantities of interest, num_observations data (one number or one per quantity) and std_dev (one number or one per quantity), random_linear_wme_problem returns num_qoi operators and data vectors; datum i of a quantity is the operator's row applied to the reference point plus std_dev times an independent standard normal draw. Operator entries are drawn from dist.", "quantifier": "all reference points, sizes, deviations, distributions, generator states", "why_tests_cant": "all sizes, deviations and streams of random numbers", "anchors": ["src/mud/examples/linear.py:random_linear_wme_problem"]}
{"id": "C105", "title": "run_wme_covariance: more data reduce the uncertainty of informed directions only", "statement": "run_wme_covariance computes for each N in Ns the updated covariance of a weighted mean error problem with N data per quantity: prior directions not seen by the operators keep the prior covariance, on the data side the covariance is sigma^2/N, and it is decreasing in N in the order of quadratic forms. It returns the problem for the last N; an empty Ns is rejected with ValueError. With a seed the result does not depend on the generator's state.", "quantifier": "all dimensions, noise levels, non-empty sequences of numbers of data, seeds, generator states", "why_tests_cant": "all sizes and streams of random numbers", "anchors": ["src/mud/examples/linear.py:run_wme_covariance", "src/mud/base.py:LinearWMEProblem.updated_cov"]}
{"id": "C106", "title": "The default work flow returns the best sample in the domain", "statement": "DensityProblem(X, y, domain, weights) with positive weights and nothing else set: estimate() returns the sample inside the domain with the largest weight * phi(y) / predicted(y), phi the standard normal density, predicted a positive density of mass 1; the first one if there are several; it never raises if there are two samples or more and the outputs are not confined to a hyperplane.", "quantifier": "all samples, outputs, positive weights, boxes containing some sample", "why_tests_cant": "all data", "anchors": ["src/mud/base.py:DensityProblem.estimate", "src/mud/base.py:DensityProblem.set_initial", "src/mud/base.py:DensityProblem.set_observed", "src/mud/base.py:DensityProblem.set_predicted"]}
{"id": "C107", "title": "Errors of the high dimensional example", "statement": "run_high_dim_linear(n, n): for alpha in (1, 0.1, 0.001) the first table holds, for k = 1..n, the relative Euclidean distances to the reference of the MUD, MAP and least squares points of the problem made of the first k rows, the second table those of the rank k operators. MUD and least squares columns do not depend on alpha; in the first table the least squares error never grows with k, and MUD and least squares errors are 0 at k = n for an invertible operator. For dim_input != dim_output nothing is returned: IndexError. The second table is not about truncations: at k = n >= 2 the least squares error is bounded below by the reference's share along the first column of vh.", "quantifier": "all dimensions, seeds, generators (uniform draws not negative, reference not 0) and all singular value decompositions", "why_tests_cant": "all dimensions, streams of random numbers and decompositions", "anchors": ["src/mud/examples/linear.py:run_high_dim_linear", "src/mud/examples/linear.py:random_linear_problem", "src/mud/util.py:rank_decomposition", "src/mud/base.py:LinearGaussianProblem.solve"]}
{"id": "C108", "title": "run_comparison_example yields the documented estimates and figures for every number of data", "statement": "For each entry of N_vals, in order, run_comparison_example returns a density problem whose mud_point is the sample of the domain with the largest ratio of the normal density at the data mean to the predicted density, a Bayes problem whose map_point is the sample of the domain with output nearest to the data mean, and draws the initial, updated and posterior densities and their push-forwards with exactly these weights. Documented for every domain: samples are drawn from it.", "quantifier": "every generator and state, power p, number of samples, mu, sigma > 0, domain and list of data counts", "why_tests_cant": "The loop chains the generator state and there is a case for every domain and draw; the default domain hides that domain is not used for sampling.", "anchors": ["src/mud/examples/comparison.py:run_comparison_example", "src/mud/examples/comparison.py:comparison_plot", "src/mud/examples/simple.py:polynomial_1D_data"]}
{"id": "C109", "title": "The spline objective of the Poisson example has one minimiser", "statement": "spline_objective_function_2d(lam, aff) returns, for every lam, the Euclidean distance on the grid of aff equally spaced points of [0, 1] between the boundary function g and the continuous piecewise linear function through (0, 0), (1/3, lam0), (2/3, lam1), (1, 0); it never raises. It is convex, so any local minimum scipy.optimize.minimize finds is global, and the minimiser is unique exactly when aff >= 4. plot_solution_spline draws the piecewise linear function through equally spaced knots with the values lam, 0 at both ends.", "quantifier": "all lam, grid sizes", "why_tests_cant": "An optimiser run on one grid shows one minimum; uniqueness and convexity are statements about all lam.", "anchors": ["src/mud/examples/poisson.py:spline_objective_function_2d", "src/mud/examples/poisson.py:plot_solution_spline", "src/mud/examples/poisson.py:run_2d_poisson_sol"]}
{"id": "C110", "title": "Loading the Poisson and ADCIRC data sets adds noise of the requested deviation", "statement": "load_poisson_prob(file, std_dev, seed) and load_adcirc_prob(file, std_dev, seed, sensors) return the contents of the file and a complete spatio-temporal problem with its samples, data, domain, sensors and times; measurement j is the true value j plus std_dev times the j-th standard normal draw of the (seeded) generator, and the result does not depend on the previous generator state if a seed is given.", "quantifier": "all data sets, deviations, seeds and generator states", "why_tests_cant": "All data sets and streams; the default std_dev hides that the argument is not used.", "anchors": ["src/mud/examples/poisson.py:load_poisson_prob", "src/mud/examples/adcirc.py:load_adcirc_prob", "src/mud/base.py:SpatioTemporalProblem.load", "src/mud/base.py:SpatioTemporalProblem.measurements_from_reference"]}
{"id": "C111", "title": "The order of the sensors and times does not matter", "statement": "mud_problem with the same sensors and times selected in another order gives the same problem for method 'wme'. For 'pca' and 'svd', whose decompositions are unique only up to signs, if the num_components largest singular values of the standardised residuals are simple, it gives the same problem up to the signs of the quantities of interest, and the same MUD point and expected ratio after any calls on both that set no output distribution of the user's own.", "quantifier": "all problems, selections and reorderings, decompositions and histories of calls", "why_tests_cant": "All reorderings, data and decompositions.", "anchors": ["src/mud/base.py:SpatioTemporalProblem.mud_problem", "src/mud/examples/poisson.py:run_2d_poisson_sol", "src/mud/examples/poisson.py:run_2d_poisson_trials"]}
{"id": "C112", "title": "run_2d_poisson_trials solves one inverse problem per number of sensors", "statement": "run_2d_poisson_trials(file, N_vals, order, seed) orders the sensors (a permutation drawn at random, sorted by the first and then the second coordinate, or as stored) and for each N in N_vals, in order, returns the density problem of the two principal components of the residuals at the first N sensors of that order and the figures of its two parameters, which carry its MUD estimate and the minimiser of the spline objective. With a seed the result does not depend on the state of numpy's or Python's generators. It returns whenever the file is complete, its domain is a box, N >= 2 and no combination of the sensor data is constant over the samples. Any N not below the number of sensors gives the same estimates, in whatever order the sensors were drawn, when the two largest singular values are simple.", "quantifier": "all data files, orders, seeds, states of both generators, lists of numbers of sensors, decompositions", "why_tests_cant": "All files, permutations and streams of two generators; N larger than the number of sensors and ties between coordinates are corner cases of slicing and sorting.", "anchors": ["src/mud/examples/poisson.py:run_2d_poisson_trials", "src/mud/base.py:SpatioTemporalProblem.mud_problem", "src/mud/base.py:DensityProblem.plot_param_space"]}
{"id": "C113", "title": "run_2d_poisson_sol shows and solves the inverse problem with all sensors", "statement": "run_2d_poisson_sol(file, sigma, seed, plot_fig, order, group_idxs) returns the loaded problem, the estimated density problem of the two principal components at all sensors, and the requested figures: the response figure scatters for each group [a, b] the sensors a..b of the order and shows the spline through the closest and the first 50 samples, the quantity of interest figure the samples coloured by each component, and the densities figure the two parameters. A seed fixes the results.", "quantifier": "all data files, orders, groups, seeds, states of both generators, requested figures", "why_tests_cant": "All files, groups and streams of two generators; the two generators must be seeded both.", "anchors": ["src/mud/examples/poisson.py:run_2d_poisson_sol", "src/mud/examples/poisson.py:plot_response_ex", "src/mud/examples/poisson.py:plot_qoi_ex"]}
{"id": "C114", "title": "The exponential decay example", "statement": "exp_decay_1D(u_0, time_range, domain, num_samples, lambda_true, t_start, sampling_freq, std_dev) returns a problem with one sensor, the samples drawn uniformly from the domain, the data u_0 exp(-lambda_i t_j), the true values u_0 exp(-lambda_true t_j), the deviation and the domain; the times are t_start + j/sampling_freq and lie in time_range. get_closest_to_true_vals gives a sample next to lambda_true: none lies strictly between. After measurements_from_reference the wme quantity of interest is strictly increasing in the decay rate for every noise, so no two rates are confused.", "quantifier": "all initial values, time ranges, domains, numbers of samples, frequencies, deviations, generator states and noises", "why_tests_cant": "All samples and noises; rounding aside the number of times is a ceiling whose boundary cases one table cannot show; the default time_range starts at the default t_start.", "anchors": ["src/mud/examples/exp_decay.py:exp_decay_1D", "src/mud/base.py:SpatioTemporalProblem.get_closest_to_true_vals", "src/mud/base.py:SpatioTemporalProblem.mud_problem"]}
{"id": "C115", "title": "The two-parameter decay and the temporal example return", "statement": "exp_decay_2D returns a spatio-temporal problem for every two-parameter domain and positive frequency, and identity_1D_temporal_prob returns a density problem.", "quantifier": "all arguments, samples and generator states", "why_tests_cant": "A run fails for one input; that no argument makes it succeed is a statement about all.", "anchors": ["src/mud/examples/exp_decay.py:exp_decay_2D", "src/mud/examples/simple.py:identity_1D_temporal_prob", "src/mud/base.py:SpatioTemporalProblem.load"]}
{"id": "C116", "title": "A time window of the ADCIRC example uses exactly the data inside it", "statement": "adcirc_time_window(prob, (t1, t2), ...) returns the estimated density problem built from the residuals at exactly the times t with t1 < t < t2 (bounds excluded, whatever the order of the times), all samples and the principal components of these residuals; its figures show the time series with that window, the vectors of those components over the times of the window, the densities of the parameters and the learned quantities of interest. Two windows that contain the same times give the same result; a window with no time is rejected with ValueError; the result does not depend on windows solved before.", "quantifier": "all spatio-temporal problems, windows, numbers of components, requested figures and decompositions", "why_tests_cant": "All problems, windows and selections of figures; earlier windows leave state behind in the problem.", "anchors": ["src/mud/examples/adcirc.py:adcirc_time_window", "src/mud/base.py:SpatioTemporalProblem.mud_problem", "src/mud/examples/adcirc.py:pca_vector_plot"]}
{"id": "C117", "title": "adcirc_solve solves one problem per time window and saves each figure", "statement": "adcirc_solve(file, num_components, t1, t2, ..., sigma, mesh_value, save, figures, seed) loads the ADCIRC data, adds noise of deviation sigma to the measurements and for each window, in order, returns its estimated problem and a table row with its bounds, MUD point and expected ratio. Figures of different windows are saved in different files, the mesh figure shows the requested value, and any number of windows is accepted. A seed fixes the results.", "quantifier": "all data files, windows, figures, mesh values, seeds and generator states", "why_tests_cant": "All data files and lists of windows; overwritten files show only with several windows.", "anchors": ["src/mud/examples/adcirc.py:adcirc_solve", "src/mud/examples/adcirc.py:load_adcirc_prob", "src/mud/examples/adcirc.py:tri_mesh_plot"]}
{"id": "C118", "title": "run_contours draws each requested figure of the problem it was given, and returns that problem solved", "statement": "run_contours(plot_fig, ...) builds the linear Gaussian problem from its arguments (documented defaults for those omitted), and returns it together with exactly the requested figures, in a fixed order and with their file names: the squared misfit, the two regularisations, and the two functionals on the grid, the MUD, MAP, least squares and initial points where the API returns them, and the solution contour through the data-consistent parameters. 'all' requests every figure. Any number of observations is accepted.", "quantifier": "all problems with two parameters, all lists or strings of requested figures, saving or not", "why_tests_cant": "All problems and selections of figures; the wrong solution contour coincides with the right one for the defaults.", "anchors": ["src/mud/examples/linear.py:run_contours", "src/mud/examples/linear.py:call_mud", "src/mud/base.py:LinearGaussianProblem.plot_contours", "src/mud/base.py:LinearGaussianProblem.plot_sol"]}
{"id": "C119", "title": "The boundary conditions drawn are the ones solved", "statement": "The forward solver's true boundary condition vanishes at both ends and has the extreme value gamma, at 2/7; it is the curve that plot_solution_spline draws as the truth for the default gamma. The line that plot_solution_spline(lam) draws, and that the spline objective measures, is the boundary condition that the forward solver solves for lam.", "quantifier": "all gamma, parameter vectors and points of the boundary", "why_tests_cant": "Only visible in FEniCS solutions, which no test runs, and only on the last interval.", "anchors": ["src/mud/examples/fenics.py:fenics_poisson_solve", "src/mud/examples/fenics.py:piecewise_eval_from_vector", "src/mud/examples/poisson.py:plot_solution_spline"]}
{"id": "C120", "title": "run_fenics generates the data set it documents", "statement": "run_fenics(num_samples, num_sensors, mins, maxs, sensor_low, sensor_high, gamma, save_path, seed) draws the sensors uniformly in their box and the samples uniformly in the domain; data[i, j] is the solution for the boundary values of sample i at sensor j and true_vals[j] the true solution there; it returns the domain, and saves the same data set in one file whose path it returns and changes no other file. Data sets of different sizes never overwrite each other. A seed fixes everything. Without FEniCS it raises ModuleNotFoundError, for bounds of different lengths ValueError, before anything is drawn.", "quantifier": "all sizes, domains, boxes, gammas, seeds, generator states, solvers and disks", "why_tests_cant": "FEniCS is not available to the tests; all solvers, streams and sizes.", "anchors": ["src/mud/examples/fenics.py:run_fenics", "src/mud/examples/fenics.py:fenics_poisson_solve"]}
{"id": "C121", "title": "A generated data set can be loaded and inverted", "statement": "load_poisson_prob of the path that run_fenics returned yields a complete problem with exactly the generated samples, data, sensors and domain, whose measurements are the true solution at the sensors plus the noise, whatever other files exist and whether or not xarray is installed; and the trials on it return whenever the domain is a box and no combination of the sensor data is constant over the samples.", "quantifier": "all generated data sets, later states of the disk, generators and orders of sensors", "why_tests_cant": "End to end over two programs that communicate by a file; tests have neither FEniCS nor the files.", "anchors": ["src/mud/examples/fenics.py:run_fenics", "src/mud/examples/poisson.py:load_poisson_prob", "src/mud/examples/poisson.py:run_2d_poisson_trials"]}
{"id": "C122", "title": "The poisson_solve and poisson_trials commands", "statement": "poisson_solve FILE prints the MUD estimate from the two leading components of the data of all sensors and draws the figures named with -p. poisson_trials FILE -n N ... prints one row per number given, in increasing order whatever the order of the options: N, the MUD estimate from the first N sensors of one random order, and the mean of its ratio. With --seed the table is reproducible.", "quantifier": "all data files of the example, numbers of sensors, noise seeds, generator states and figure names", "why_tests_cant": "The commands are not tested; all files, orders and generator states.", "anchors": ["src/mud/examples/examples.py:poisson_solve", "src/mud/examples/examples.py:poisson_trials", "src/mud/examples/examples.py:examples", "src/mud/examples/poisson.py:run_2d_poisson_sol"]}
{"id": "C123", "title": "The mud_paper command", "statement": "mud_paper reproduces the figures of the paper: with the data files in place and of the expected form it runs to the end; it uses existing data files as they are, and without FEniCS downloads a missing one to its place; where FEniCS is installed it generates missing data itself. The table has the rows 5, 50 and 500, each from the first N sensors of one order; figures 11 to 13 show three windows with one and two components, each from the instants strictly inside. Each figure has its own file. With --seed a second run shows the same.", "quantifier": "for every content of the disk and of the server, every seed, save path, state of both generators and every data set", "why_tests_cant": "the failure depends on what is installed and present, and the end-to-end run depends on both generators and on two data files", "anchors": ["src/mud/examples/examples.py:mud_paper", "src/mud/examples/poisson.py:run_2d_poisson_sol", "src/mud/examples/adcirc.py:adcirc_time_window", "src/mud/examples/linear.py:run_contours", "src/mud/examples/fenics.py:run_fenics"]}
{"id": "C124", "title": "The commands comparison, contours, wme_covariance, high_dim_linear and poisson_generate", "statement": "Each command runs its example with the values given on the command line (the last one of those that can be given once, all of those that can be given several times), or with the defaults of the help; values that are not numbers of the right kind are usage errors and nothing runs. With --seed every command is a function of its arguments; a seed out of range is an error. A JSON file of arguments for contours is used as documented. poisson_generate prints the path of the file it wrote, and poisson_trials accepts it; without FEniCS it says so and writes nothing.", "quantifier": "for every command line, content of the JSON file, generator, state and seed", "why_tests_cant": "command lines and file contents are an unbounded space; the failures are in combinations nobody tried", "anchors": ["src/mud/examples/examples.py:comparison", "src/mud/examples/examples.py:contours", "src/mud/examples/examples.py:wme_covariance", "src/mud/examples/examples.py:high_dim_linear", "src/mud/examples/examples.py:poisson_generate"]}
{"id": "C125", "title": "Importing mud.plot leaves the session as it was but for its settings", "statement": "Whatever matplotlib, LaTeX or the file system do during the import, and whatever they raise, at any point: the LaTeX check restores every setting of matplotlib, leaves only the file .test_fig.png in the working directory to have changed, and removes it if LaTeX works; RuntimeError and FileNotFoundError mean no LaTeX, anything else ends the import with the settings untouched. A successful import sets the thirteen settings of the package, text.usetex according to the check, and no other. The user's open figures and files are left alone.", "quantifier": "every session (settings, open figures, files), every working directory, every point of failure and exception", "why_tests_cant": "The outcome depends on what is installed and on where the check is interrupted; a test runs in one environment, with no figure open and no file of that name.", "anchors": ["src/mud/plot.py:_check_latex", "src/mud/plot.py:mud_plot_params"]}
{"id": "C126", "title": "save_figure writes the current figure to the named file, and nothing else", "statement": "save_figure(fname, save_path, close_fig) writes the current figure to save_path/fname, touches no other file, figure or setting and closes the figure unless close_fig is False; if writing raises, the exception is the caller's and the figure stays open. A script that saves any number of figures under different names has all of them in their files afterwards and leaks no figure. The file is always inside save_path.", "quantifier": "all sessions, figures, names, directories, renderers and their exceptions, all scripts", "why_tests_cant": "All names and histories of figures; overwriting and leaking show only with several figures.", "anchors": ["src/mud/plot.py:save_figure"]}
{"id": "C127", "title": "plot_1D_vecs draws every vector on the axes it returns", "statement": "plot_1D_vecs(vecs, markers, ax, label, **kwargs) draws on ax, or on the only axes of a new figure, for the i-th vector its entries over 0, 1, ..., with the i-th marker and the label p^(i), in order, and nothing else, and returns these axes; other figures are untouched. With fewer markers than vectors it raises IndexError, after drawing as many vectors as there are markers.", "quantifier": "all lists of vectors and markers, options, sessions and axes", "why_tests_cant": "All numbers of vectors and markers; which axes are current is state of the session.", "anchors": ["src/mud/plot.py:plot_1D_vecs"]}
{"id": "C128", "title": "The updated distribution reproduces the observed one", "statement": "For the linear Gaussian problem with full rank predicted covariance, the normal distribution with the MUD point as mean and the updated covariance is pushed forward by the map to exactly the observed distribution N(y, C), and it is the initial distribution reweighted by the ratio of the observed to the predicted distribution. For rank deficient maps its push-forward is the observed distribution projected orthogonally on the attainable outputs.", "quantifier": "all dimensions, operators, offsets, data, means, covariances", "why_tests_cant": "An equality of probability distributions on all measurable sets; sampling can only suggest it.", "anchors": ["src/mud/base.py:LinearGaussianProblem.solve", "src/mud/funs.py:updated_cov", "src/mud/funs.py:mud_sol"]}
{"id": "C129", "title": "The MUD point is the point of maximal updated density", "statement": "For the linear Gaussian problem with positive definite covariances and a map of full row rank, initial density times observed over predicted density (at the output) is the density of the normal distribution with mean the MUD point and covariance updated_cov; it is strictly smaller at every other parameter.", "quantifier": "all dimensions, full rank operators, offsets, data, means, positive definite covariances and all parameters", "why_tests_cant": "A strict global maximum over a continuum for all problems.", "anchors": ["src/mud/base.py:LinearGaussianProblem.solve", "src/mud/funs.py:updated_cov", "src/mud/funs.py:mud_sol"]}
{"id": "C130", "title": "The MAP point and covariance are those of Bayes' posterior", "statement": "map_sol_with_cov(A, b, y, m, S, C, w) returns mean and covariance of the posterior distribution of Bayes' theorem for the prior N(m, w S) and the likelihood of y = A lambda + b + noise, noise ~ N(0, C): prior density times likelihood over the evidence (its integral) is the normal density with that mean and covariance.", "quantifier": "all dimensions, operators, offsets, data, means, positive definite covariances, positive weights", "why_tests_cant": "An identity between densities and an integral over all parameters, for all problems.", "anchors": ["src/mud/funs.py:map_sol_with_cov", "src/mud/funs.py:map_sol", "src/mud/base.py:LinearGaussianProblem.solve"]}
{"id": "C131", "title": "The weighted mean error of noisy data is standard normal at the truth", "statement": "Data made by add_noise from a signal with deviation sd, and wme(predictions, data, sd): with independent standard normal noise the value of a sample is normally distributed with variance 1 and as mean the scaled mean deviation of its predictions from the signal, exactly and for any number of data; standard normal if the predictions are the signal, which is what the default observed distribution assumes. With any other independent noise of mean 0 and variance 1 the distribution tends to the standard normal one as the number of data grows.", "quantifier": "all signals, numbers of data, deviations, prediction tables, generators with independent draws", "why_tests_cant": "A statement about probability distributions and a limit; a test sees single draws.", "anchors": ["src/mud/util.py:add_noise", "src/mud/funs.py:wme", "src/mud/base.py:DensityProblem.set_observed"]}
{"id": "C132", "title": "The expected ratio estimates how much of the observed distribution can be predicted", "statement": "For samples drawn independently (from the initial distribution, or from another positive density and weighted by the quotient), the outputs of a model on them, and the true densities of the initial, observed and output distributions set, DensityProblem.expected_ratio returns for every number of samples and converges almost surely to the observed probability of the region where the predicted density does not vanish; this is 1 iff the observed distribution is absolutely continuous with respect to the distribution of the outputs (predictability). In the linear Gaussian case of full row rank it converges to 1.", "quantifier": "all models, densities, sampling distributions, weights, domains and numbers of samples", "why_tests_cant": "An almost sure limit over all sample sequences.", "anchors": ["src/mud/base.py:DensityProblem.expected_ratio", "src/mud/base.py:DensityProblem.set_weights", "src/mud/base.py:DensityProblem.set_predicted"]}
{"id": "C133", "title": "The MUD estimate from noisy measurements is unbiased, normal and consistent", "statement": "LinearWMEProblem with data of linear quantities of interest at a true parameter plus independent standard normal noise times the deviation: the MUD point is normally distributed around the MUD point for exact data; directions the data do not inform keep the initial mean and covariance; for independent gradients the estimate is unbiased for each quantity and the covariances of these estimates are those of updated_cov; with as many quantities as parameters it is distributed as N(true parameter, updated_cov). For any integrable independent noise of mean 0 it converges almost surely, as data are added, to the exact-data MUD point: to the true parameter if it is identified.", "quantifier": "all dimensions, gradients, deviations, numbers of data, initial means and covariances, true parameters and noises", "why_tests_cant": "Distributions and almost sure limits of the estimator.", "anchors": ["src/mud/base.py:LinearWMEProblem", "src/mud/base.py:LinearGaussianProblem.solve", "src/mud/funs.py:updated_cov"]}
{"id": "C134", "title": "The MUD point of a DensityProblem converges to the maximiser of the updated density", "statement": "For independent samples from any distribution that charges every neighbourhood of a peak of the updated density (initial x weight x observed / predicted at the output), almost surely: estimate returns for every number of samples, the updated density at the estimate never decreases as samples are added, and the estimate converges to the peak. If the updated density is at most h outside the ball of radius e around the peak, the estimate from n samples lies outside with probability at most (1 - p)^n, p the probability that a sample has updated density above h.", "quantifier": "all models, densities, weights, domains, sampling distributions and numbers of samples", "why_tests_cant": "An almost sure limit over all sample sequences and a bound on a probability.", "anchors": ["src/mud/base.py:DensityProblem.mud_point", "src/mud/base.py:DensityProblem.estimate", "src/mud/base.py:DensityProblem.fit"]}
{"id": "C135", "title": "DensityProblem and LinearGaussianProblem agree in the limit", "statement": "Normal initial distribution with independent entries, linear model of full row rank, normal observations, predicted distribution the true one: the MUD points of DensityProblem from independent samples of any distribution that charges every open set converge almost surely to the MUD point of LinearGaussianProblem; the probability of being further than e from it decreases exponentially with the number of samples.", "quantifier": "all dimensions, full rank operators, offsets, data, means, deviations, sampling distributions", "why_tests_cant": "Two classes and an almost sure limit.", "anchors": ["src/mud/base.py:DensityProblem.mud_point", "src/mud/base.py:LinearGaussianProblem.solve", "src/mud/funs.py:mud_sol"]}
{"id": "C136", "title": "The MAP point of a BayesProblem converges to the maximiser of the posterior", "statement": "For independent samples from any distribution that charges every neighbourhood of a peak of prior times likelihood, almost surely estimate returns as soon as there are enough samples and converges to the peak. For a linear model with normal prior and likelihood (independent entries) the limit is the MAP point of LinearGaussianProblem.", "quantifier": "all models, priors, likelihoods, domains, sampling distributions and numbers of samples", "why_tests_cant": "An almost sure limit over all sample sequences.", "anchors": ["src/mud/base.py:BayesProblem.map_point", "src/mud/base.py:BayesProblem.fit", "src/mud/base.py:LinearGaussianProblem.solve"]}
{"id": "C137", "title": "Rounding error of the weighted mean error", "statement": "In floating-point arithmetic with relative error u per operation, whatever the order in which the sum is taken, wme(predictions, data, sd) returns for every sample the exact value up to 2 (n + 6) u times the mean absolute deviation scaled like the value itself (sum of |prediction - datum| over sd sqrt(n)), n the number of data with (n + 6) u <= 1; predictions equal to the data give exactly 0.", "quantifier": "all prediction tables, data, deviations, numbers of data, roundings and orders of summation", "why_tests_cant": "A bound over all inputs and all evaluation orders; a test compares single values with a guessed tolerance.", "anchors": ["src/mud/funs.py:wme"]}
{"id": "C138", "title": "The MUD point in floating point is a near maximiser", "statement": "In floating-point arithmetic with relative error u, DensityProblem.mud_point returns a sample whose exact updated density is at least ((1-u)/(1+u))^3 times that of every other sample; it is the exact MUD point whenever the best sample is better than all others by more than this factor.", "quantifier": "all problems with nonnegative densities and weights and positive predicted densities, all roundings", "why_tests_cant": "Ties broken by rounding show on inputs a test does not contain.", "anchors": ["src/mud/base.py:DensityProblem.mud_point", "src/mud/base.py:DensityProblem.fit"]}
{"id": "C139", "title": "Rounding error of the expected ratio", "statement": "In floating-point arithmetic with relative error u and any order of summation, DensityProblem.expected_ratio returns whenever the exact computation does, and the exact value up to a relative error 6 n u, n the number of samples with 3 n u <= 1.", "quantifier": "all problems with nonnegative observed densities and weights, positive predicted densities and a positive weight; all roundings and orders of summation", "why_tests_cant": "A bound over all inputs and all evaluation orders.", "anchors": ["src/mud/base.py:DensityProblem.expected_ratio", "src/mud/base.py:DensityProblem.fit"]}
{"id": "C140", "title": "The MAP point in floating point is a near maximiser", "statement": "In floating-point arithmetic with relative error u (no underflow), BayesProblem.map_point raises ValueError exactly when prior times likelihood vanishes at every sample, and otherwise returns a sample whose prior times likelihood is at least (1-u)/(1+u) times that of every sample. With a log likelihood it raises ValueError (the rounded log posterior sums to zero) or returns a sample whose log prior plus log likelihood is largest up to u times the magnitudes involved.", "quantifier": "all problems with nonnegative densities, all roundings and orders of summation", "why_tests_cant": "Ties and cancellations caused by rounding show on inputs a test does not contain.", "anchors": ["src/mud/base.py:BayesProblem.map_point", "src/mud/base.py:BayesProblem.fit"]}
{"id": "C141", "title": "Rounding errors do not accumulate in the iterative solver", "statement": "If each update of iterate is computed up to an error e (distance measured by the covariance), the last point is within e times the number of updates of the exact one, for every system, consistent or not; this is attained when the solution is not unique. If the system has exactly one solution and every row is visited, there is a rate r < 1 such that after any number of epochs the distance of the computed point to the solution is at most r^epochs times the initial distance plus e len(idx) / (1 - r).", "quantifier": "all systems, covariances, initial points, orders of rows, numbers of epochs and errors", "why_tests_cant": "A bound uniform in the number of epochs.", "anchors": ["src/mud/funs.py:iterate", "src/mud/base.py:IterativeLinearProblem.solve", "src/mud/funs.py:mud_sol"]}
{"id": "C142", "title": "The linear estimates depend continuously on the problem", "statement": "If operators, offsets, data, initial means, covariances and alpha tend to those of a limit problem, the MAP points tend to its MAP point (positive definite covariances); the MUD points and updated covariances tend to its own if the predicted covariance A S A^T is invertible; the least squares points if the operator has full row or column rank. For a fixed operator and fixed covariances every estimate is Lipschitz in data, offset and initial mean, whatever the rank. At a rank deficient operator MUD and least squares jump: arbitrarily small changes of the operator move them arbitrarily far.", "quantifier": "all linear problems and all convergent families of problems", "why_tests_cant": "A limit over families of problems.", "anchors": ["src/mud/base.py:LinearGaussianProblem.solve", "src/mud/funs.py:mud_sol", "src/mud/funs.py:map_sol", "src/mud/funs.py:updated_cov"]}
{"id": "C143", "title": "The default predicted density is consistent", "statement": "DensityProblem without a predicted density: for independent samples (weighted by the quotient if they are drawn from another distribution), a measurable model with finite second moments whose output is not confined to a hyperplane, and either bandwidth rule, almost surely set_predicted succeeds as soon as there are enough samples, the stored values are those of the Gaussian kernel estimate of the outputs, and the estimated distributions converge (weakly) to the true predicted distribution. If the outputs are confined to a hyperplane, set_predicted raises for every number of samples. For a normal initial distribution and a linear model of full row rank the limit is N(A m + b, A S A^T).", "quantifier": "all sampling distributions and weights, models, domains and both bandwidth rules; almost every sequence of samples", "why_tests_cant": "A limit over all sample sizes and almost all random streams.", "anchors": ["src/mud/base.py:DensityProblem.set_predicted", "src/mud/base.py:DensityProblem._set_weights"]}
{"id": "C144", "title": "The default predicted density converges uniformly", "statement": "DensityProblem without a predicted density: for independent samples with bounded weights and a model whose outputs have finite second moments and a bounded density, almost surely set_predicted succeeds as soon as there are enough samples, and the kernel estimates whose values it stores converge to the true density uniformly on every compact set at whose points the density is continuous. For a normal initial distribution and a linear model of full row rank they converge uniformly on the whole output space.", "quantifier": "all sampling distributions and bounded weights, models, domains and both bandwidth rules; almost every sequence of samples", "why_tests_cant": "A limit over all sample sizes and almost all random streams, uniform in the point of evaluation.", "anchors": ["src/mud/base.py:DensityProblem.set_predicted"]}
{"id": "C145", "title": "The default MUD estimate converges to the maximiser of the updated density", "statement": "DensityProblem without a predicted density, outputs with a bounded density: for independent samples and bounded initial and observed densities, the estimates converge almost surely to the peak of the updated density initial x observed / density of the outputs as the number of samples grows.", "quantifier": "all sampling distributions, models, domains, initial and observed densities; almost every sequence of samples", "why_tests_cant": "A limit over all sample sizes and almost all random streams; runs at any fixed size show an estimate with no reference point.", "anchors": ["src/mud/base.py:DensityProblem.mud_point,fit,set_predicted"]}
{"id": "C146", "title": "The expected ratio with the default predicted density converges to one", "statement": "DensityProblem without a predicted density, independent samples, outputs with a bounded density: when the observed density is bounded and vanishes outside a compact set where the density of the outputs is continuous and positive, the value expected_ratio returns converges almost surely to 1. For uniform samples on the unit interval and the identity as model it converges to the observed probability of the interval for every continuous observed density.", "quantifier": "all sampling distributions, models, weights, domains and observed densities as described; almost every sequence of samples", "why_tests_cant": "A limit over all sample sizes and almost all random streams; a test sees one finite value near 1.", "anchors": ["src/mud/base.py:DensityProblem.expected_ratio,fit,set_predicted"]}
{"id": "C147", "title": "Samples weighted by weights times ratios represent the updated distribution", "statement": "After fit, the averages of a bounded quantity over the samples, weighted by sample weights times the ratios r of fit, converge almost surely to its expectation under one probability distribution, the updated one, whose outputs have exactly the observed distribution: with the density of the outputs given as predicted density (any number of outputs, every predictable observed density), and with the default predicted density under the conditions of C146.", "quantifier": "all sampling distributions, models, weights and bounded measurable quantities; almost every sequence of samples", "why_tests_cant": "A limit over all sample sizes and almost all random streams, for every test quantity.", "anchors": ["src/mud/base.py:DensityProblem.fit,set_predicted,set_observed"]}
{"id": "C148", "title": "With growing data the MUD point becomes the sample nearest to the truth", "statement": "Samples, domain and weights fixed, DensityProblem with default densities on the wme of k quantities, each measured N times: if the means of the measurements and of each sample's predictions converge, then from some N on the MUD point is a sample of the domain whose mean predictions are nearest to the mean measurements, distances taken in units of the standard deviations. With independent measurement errors of mean zero this happens almost surely; if the nearest sample is unique, the MUD point is this sample.", "quantifier": "all samples, predictions not confined to a hyperplane, domains, positive weights and standard deviations, data sequences; almost every sequence of errors", "why_tests_cant": "A limit over all numbers of measurements; a test sees one data set, and the estimate of the predicted density changes with each.", "anchors": ["src/mud/funs.py:wme; src/mud/base.py:DensityProblem.estimate,fit"]}
{"id": "C149", "title": "With growing data the expected ratio tends to zero unless a sample is exact", "statement": "In the situation of C148 the diagnostic expected_ratio tends to 0 as the measurements accumulate unless a sample predicts the limits exactly, however good the model is; with exact data predicted exactly by a sample it grows beyond all bounds.", "quantifier": "all samples, predictions not confined to a hyperplane, domains, positive weights and standard deviations, data sequences; almost every sequence of errors", "why_tests_cant": "A limit over all numbers of measurements; a test sees finite values for one data set.", "anchors": ["src/mud/funs.py:wme; src/mud/base.py:DensityProblem.expected_ratio"]}
{"id": "C150", "title": "map_problem chooses the sample with least squares", "statement": "map_problem(lam, qoi, qoi_true, domain, sd, num_obs).estimate(): the sample in the domain with the smallest sum of squared differences between its predictions and the first num_obs noisy data, the first one in case of ties. With log=True the same, except for a ValueError when all samples are in the domain and the log posteriors sum to 0. With no sample in the domain: ValueError without log, the first sample with log.", "quantifier": "all samples, predictions, true values, domains, standard deviations, numbers of observations and generator states", "why_tests_cant": "Quantifies over all tables of predictions and all noise.", "anchors": ["src/mud/funs.py:map_problem; src/mud/base.py:BayesProblem.estimate,fit"]}
{"id": "C151", "title": "mud_problem and map_problem agree when the data are plentiful", "statement": "On the same samples and the same generator state: from some number of measurements on, the estimates of mud_problem (without split) and map_problem are the same sample, if the means of predictions, data and squared differences converge and one sample in the domain is nearest in the mean.", "quantifier": "all samples, predictions, domains, weights, standard deviations, generators and true values", "why_tests_cant": "A limit over all numbers of measurements.", "anchors": ["src/mud/funs.py:mud_problem,map_problem"]}
{"id": "C152", "title": "Plot options of DensityProblem and BayesProblem: the user's where given, the defaults otherwise, None to suppress", "statement": "plot_param_space and plot_obs_space draw each curve and line with the options the user gives for it and the default of every option not given; passing None leaves out exactly that element and nothing else leaves one out; options change neither the densities, nor the positions, nor the effect on the object; an option with the name of an argument that the method passes on itself is a TypeError.", "quantifier": "all problems in all states, all option dictionaries for all elements, all other arguments, every kernel estimator", "why_tests_cant": "Option dictionaries have unboundedly many combinations of present, absent, empty and None, in every state of the problem.", "anchors": ["src/mud/base.py:DensityProblem.plot_param_space,plot_obs_space,BayesProblem.plot_param_space,plot_obs_space; src/mud/plot.py:plot_dist,plot_vert_line"]}
{"id": "C153", "title": "plot_ts draws with the options of the caller", "statement": "plot_ts draws the measured points with meas_kwargs and the simulated series with samples_kwargs, each completed by the defaults; options do not change what is drawn.", "quantifier": "all problems, selections, numbers of lines, random choices and option dictionaries", "why_tests_cant": "Quantifies over all selections and random choices; the deviation shows only in one of many lines.", "anchors": ["src/mud/base.py:SpatioTemporalProblem.plot_ts"]}
{"id": "C154", "title": "plot_sol respects the dictionaries of the caller", "statement": "plot_sol draws marker, line and annotation with the options given, the annotation where asked (by default to the upper left of the marker), and leaves the dictionaries as they were, over any sequence of calls.", "quantifier": "all problems, points, labels, dictionaries (shared or not, default or not), sequences of calls", "why_tests_cant": "Aliasing shows only in a history of calls and in which dictionaries are shared.", "anchors": ["src/mud/base.py:LinearGaussianProblem.plot_sol"]}
{"id": "C155", "title": "plot_contours draws with its options and numbers the contours", "statement": "LinearGaussianProblem.plot_contours draws each contour with plot_opts, and with annotate=True labels the i-th with label.format(i=i), at note_loc or at the start of the line; this also holds for the default options.", "quantifier": "all problems with two parameters, decompositions, widths, labels and options", "why_tests_cant": "Quantifies over all problems and options; what matplotlib accepts is external.", "anchors": ["src/mud/base.py:LinearGaussianProblem.plot_contours"]}
{"id": "C156", "title": "A call on a DensityProblem that raises has no effect", "statement": "If a setter, fit, estimate or expected_ratio raises, the results of every later call are those without the failed call; repeating the failed call raises the same exception again and changes nothing.", "quantifier": "all problems in all states, all calls and arguments, every exception, all later sequences of calls", "why_tests_cant": "The exception can come at any step of any call of any history, and its traces show only in later calls.", "anchors": ["src/mud/base.py:DensityProblem.set_weights,set_observed,set_initial,set_predicted,fit,estimate,expected_ratio"]}
{"id": "C157", "title": "A call on a BayesProblem that raises has no effect", "statement": "If set_prior, set_likelihood, fit or estimate raises, the results of every later call are those without the failed call; repeating the failed call raises the same exception again and changes nothing.", "quantifier": "all problems, histories, calls and arguments, every exception, all later sequences of calls", "why_tests_cant": "The exception can come at any point of any history, and its traces show only in later calls.", "anchors": ["src/mud/base.py:BayesProblem.set_prior,set_likelihood,fit,estimate"]}
{"id": "C158", "title": "An assignment to a SpatioTemporalProblem that raises has no effect", "statement": "If assigning domain, lam, lam_ref, data, measurements, true_vals, sample_dist, sensors, times or std_dev raises, the object is as before.", "quantifier": "all attributes, values and objects", "why_tests_cant": "Quantifies over all objects and all rejected values.", "anchors": ["src/mud/base.py:SpatioTemporalProblem"]}
{"id": "C159", "title": "A load that raises has no effect", "statement": "If load(ds) raises, the object is as before.", "quantifier": "all data sets, mappings and objects", "why_tests_cant": "Quantifies over all data sets and the position of the defective entry.", "anchors": ["src/mud/base.py:SpatioTemporalProblem.load"]}
{"id": "C160", "title": "Loading a data set into an object in use", "statement": "load(ds) replaces the problem in the object by that of the data set; in particular loading the same data set twice changes nothing.", "quantifier": "all complete data sets and all objects with samples", "why_tests_cant": "Quantifies over the state of the object and the data set.", "anchors": ["src/mud/base.py:SpatioTemporalProblem.load,domain"]}
{"id": "C161", "title": "Using data in batches", "statement": "Calling map_sol_with_cov or mud_sol_with_cov for one batch of data after the other, with the mean and covariance returned for one batch as initial mean and covariance for the next, gives the result of one call with all the data, in any order of the batches.", "quantifier": "all numbers, sizes and orders of batches, all maps, data and positive definite covariances", "why_tests_cant": "Quantifies over all sequences of batches of any length; one agreement is no evidence for another.", "anchors": ["src/mud/funs.py:map_sol_with_cov,mud_sol_with_cov"]}
{"id": "C162", "title": "The order of the observations does not matter in linear problems", "statement": "Listing the observations of a LinearGaussianProblem - rows of A, entries of b and y, rows and columns of cov_o - in another order changes neither the result (or exception) of any sequence of solve calls nor mud, mud_alt, map, ls, up_cov, cov_p or updated_cov. The same for the observations of each quantity of interest of a LinearWMEProblem, for its quantities of interest, and for wme(predictions, data).", "quantifier": "all permutations, problems (singular ones included), methods and sequences of calls", "why_tests_cant": "There are d! orders of d observations, for every problem and history.", "anchors": ["src/mud/base.py:LinearGaussianProblem.solve,updated_cov,LinearWMEProblem", "src/mud/util.py:transform_linear_map,transform_linear_setup", "src/mud/funs.py:wme"]}
{"id": "C163", "title": "Quantities unrelated to the data keep their initial distribution", "statement": "Linear combinations Q lambda of the parameters that are, under the initial distribution N(mean_i, cov_i), uncorrelated with every output of the map keep their initial values at the MUD, alternative MUD and MAP points, at all points returned by iterate and after any number of batches of data - whatever the data, the offset and the rank of the map; their covariances with all parameters under updated_cov and cov_p are the initial ones, so that their distribution is the initial one. The MAP variance of every other linear combination is smaller than the initial one. A parameter that the map does not use and that is initially uncorrelated with the others is such a quantity.", "quantifier": "all problems, data, orders of rows, numbers of epochs and batches, and all quantities Q", "why_tests_cant": "It is a statement about every combination of the parameters, and about histories of any length.", "anchors": ["src/mud/base.py:LinearGaussianProblem.solve,updated_cov", "src/mud/funs.py:mud_sol_with_cov,map_sol_with_cov,iterate,updated_cov"]}
{"id": "C164", "title": "How the updates change the uncertainty", "statement": "The MUD update makes no quantity c.lambda more uncertain exactly when no combination of the data is more spread than its prediction under the initial distribution; it makes none less uncertain exactly when none is less spread; it leaves the covariance as it is exactly when data and predictions have the same covariance. For each quantity the change of the variance is that of its best linear prediction from the outputs, whose variance becomes that of the data. The MAP variance of a quantity (alpha given) is always smaller than its MUD variance from the same initial covariance, unless it is uncorrelated with the outputs; and the predictions of the MAP distribution are less spread than the data in every direction, whatever the map.", "quantifier": "all problems with positive definite initial covariance and maps of full row rank (none needed for the last claim), all data, all quantities", "why_tests_cant": "It is an equivalence between statements about all combinations of parameters and of outputs.", "anchors": ["src/mud/base.py:LinearGaussianProblem.solve,updated_cov", "src/mud/funs.py:updated_cov"]}
{"id": "C165", "title": "Repeated measurements count through their number and their average", "statement": "wme depends on data and predictions only through their sums; the value for two sets of measurements in one call is that of the sets weighted with the square roots of their sizes, over the square root of the total. A LinearWMEProblem is the same problem for other data with the same (weighted) average of each quantity. If no data covariance is given it does not matter whether the measurements of a quantity are passed as one entry of the lists or distributed over several, in any order: solve with every method, in every sequence of calls, returns and stores the same, and updated_cov is the same - although the transformed map is another one and no longer of full row rank.", "quantifier": "all data, predictions, quantities of interest, partitions of their measurements into entries and sequences of calls of solve", "why_tests_cant": "It compares problems with different numbers of rows, for all partitions of the data and all histories of calls.", "anchors": ["src/mud/funs.py:wme", "src/mud/base.py:LinearWMEProblem,LinearGaussianProblem.solve,updated_cov", "src/mud/util.py:transform_linear_map"]}
{"id": "C166", "title": "A linear problem holds the results of the last calls that computed them", "statement": "The attributes mud, mud_alt, up_cov, map, cov_p and ls raise AttributeError on a new LinearGaussianProblem. After any history of calls of solve(method, output_dim), some of which may raise (solve('all') possibly after some of its steps) or ask for an unknown method, each holds what a single solve for it on the fresh object leaves there, with the output_dim of the last call of the history that computed it, or is as it was if no call did. mud_alt and up_cov always come from the same call, and so do map and cov_p.", "quantifier": "all problems and all histories of calls, with any method names and output dimensions, raising or not", "why_tests_cant": "It ranges over unbounded histories of calls, with exceptions in the middle of a call.", "anchors": ["src/mud/base.py:LinearGaussianProblem.solve,LinearGaussianProblem.__init__"]}
{"id": "C167", "title": "The mean square error of the estimates", "statement": "If the parameters are drawn from the initial distribution and the data carry independent normal noise with the given covariance, then the covariances reported with the estimates are their mean square errors, for every linear quantity w . lambda: for solve('map') the attribute cov_p (initial distribution N(mean, alpha cov)), for solve('mud') the value of updated_cov() (initial distribution N(mean, cov), any alpha > 0). No way of estimating the quantity from the data, linear or not, has a smaller mean square error than the MAP point; so for alpha = 1 MUD never does better than MAP on average.", "quantifier": "all maps, offsets, means, covariances, quantities and measurable estimators with finite mean square error", "why_tests_cant": "It is about expectations over continuous distributions and compares with every possible estimator.", "anchors": ["src/mud/base.py:LinearGaussianProblem.solve,updated_cov"]}
{"id": "C168", "title": "More or better information never hurts", "statement": "Every linear combination of the parameters has at most the reported variance it has in a problem with less information: observations left out, observations replaced by averages or other combinations of them, more noise, or a larger initial covariance. (a) For the attribute cov_p after solve('map'). (b) For updated_cov(), where the initial covariance stays the same and no observation has more noise than its prediction had initially.", "quantifier": "all maps, data, means, positive definite covariances, combinations of the observations and combinations of the parameters", "why_tests_cant": "It compares the problem with all the problems with less information.", "anchors": ["src/mud/base.py:LinearGaussianProblem.solve,updated_cov"]}
{"id": "C169", "title": "The reported uncertainties are calibrated", "statement": "If the parameters are drawn from the initial distribution and the data carry independent normal noise with the given covariance, then the error of the estimate is normal with mean zero and the reported covariance (cov_p after solve('map'), with initial distribution N(mean, alpha cov); updated_cov() for solve('mud'), with initial distribution N(mean, cov)). So, for every linear quantity, the interval of z reported standard deviations around its estimate contains its true value with the probability that a standard normal variable is at most z in modulus. For MAP this also holds among the data in any given set: the error is independent of the data.", "quantifier": "all maps, offsets, means, covariances, quantities, z and measurable sets of data", "why_tests_cant": "It is about probabilities over continuous distributions.", "anchors": ["src/mud/base.py:LinearGaussianProblem.solve,updated_cov"]}
{"id": "C170", "title": "Iterating on contradictory data settles", "statement": "No assumption is made on the data. (a) For every system, covariance and order of rows there is a rate r < 1, the same for all data, such that the chain of iterate approaches a cycle: an epoch started at a certain point xM returns the points of that cycle and ends at xM, and the squared distance of the j-th point of the i-th epoch to the j-th point of the cycle is at most r^i times the squared distance of the initial mean to xM. So the last points converge to xM, at which iterate started there ends again and which satisfies the row visited last; xM does not depend on the initial mean if the visited rows determine the parameters; and xM satisfies all visited rows if some point does, whatever the rows that are not visited say. (b) xM is the MUD point of the whole system. (c) xM does not depend on the order of the rows.", "quantifier": "all maps, offsets, data (consistent or not), positive definite covariances, initial means, lists of rows (complete or not, with repetitions) and numbers of epochs", "why_tests_cant": "A limit, with a rate that is uniform over all data.", "anchors": ["src/mud/funs.py:iterate,performEpoch"]}
{"id": "C171", "title": "Units do not matter in the iterative solver", "statement": "The chain returned by iterate is unchanged, point by point, if rows, offsets and data are multiplied by non-zero factors (other units of the observations), if the covariance is multiplied by a non-zero number, if the same vector is added to offset and data, and if the observations are renumbered and idx_order with them. For a problem in other parameters z with x = T z + t (other units, another origin, or fewer parameters) the chain in x is the image of the chain in z.", "quantifier": "all maps, offsets, data, covariances (singular ones included), means, factors, matrices T, shifts t, lists of rows and numbers of epochs", "why_tests_cant": "It relates runs on different inputs, for all factors and transformations.", "anchors": ["src/mud/funs.py:iterate,performEpoch"]}
{"id": "C172", "title": "Credible regions and the size of the misfit", "statement": "If the parameters are drawn from the initial distribution and the data carry independent normal noise with the given covariance: the ellipsoid of the parameters l with (l - x)' cov^-1 (l - x) <= t around the estimate x contains the true parameters with the probability that a chi-squared variable with as many degrees of freedom as parameters is at most t, for x the MAP point and cov = cov_p (initial distribution N(mean, alpha cov); also among the data in any given set) and for x the MUD point and cov = updated_cov() (initial distribution N(mean, cov)); both covariances are invertible. The regularised misfit that the MAP point minimises has at its minimum the chi-squared distribution with as many degrees of freedom as observations.", "quantifier": "all maps, offsets, means, positive definite covariances, levels t and measurable sets of data", "why_tests_cant": "It is about probabilities over continuous distributions.", "anchors": ["src/mud/base.py:LinearGaussianProblem.solve,updated_cov"]}
{"id": "C173", "title": "MAP points for a vague prior or small noise", "statement": "For any data, attainable or not: (a) among the points that fit the data best in the norm of the noise covariance there is exactly one that is nearest to the initial mean in the norm of the initial covariance; the squared distance of the MAP point to it is at most a constant times t / alpha if the noise covariance is multiplied by t, so MAP converges to it as alpha grows or the noise vanishes. (b) This point is the MUD point.", "quantifier": "all maps, offsets, data, means, positive definite covariances, alpha and t > 0", "why_tests_cant": "A limit, with a rate.", "anchors": ["src/mud/base.py:LinearGaussianProblem.solve"]}
{"id": "C174", "title": "A selection is the same as having measured only that", "statement": "mud_problem on a problem with sample, time and sensor masks gives exactly what mud_problem without masks gives on a problem that holds only the selected samples, times and sensors: the same density problem or the same exception, for every method, number of components and sample weights; hence equal estimates after every history.", "quantifier": "all problems, masks (index lists, boolean arrays, slices), methods and weights of the samples, every history of operations afterwards", "why_tests_cant": "Two programs are compared on all problems and masks.", "anchors": ["src/mud/base.py:SpatioTemporalProblem.mud_problem", "src/mud/base.py:SpatioTemporalProblem.sample_data"]}
{"id": "C175", "title": "When the estimates of a linear problem agree", "statement": "For data that some parameters reproduce: (a) these are equivalent: the initial mean reproduces the data; MUD is the initial mean; MAP is the initial mean; MAP is MUD. Otherwise MAP lies strictly between: nearer to the initial mean than MUD (in the norm of the initial covariance) but different from it, and with a smaller misfit than the initial mean but not zero. (b) MUD is the least-squares point exactly when cov_i^-1 (LS - mean_i) is orthogonal to every direction that A maps to zero; for cov_i = s I, exactly when mean_i is. (c) If A maps no direction to zero, MUD and LS are the parameters that produced the data, whatever the initial distribution.", "quantifier": "all maps (rectangular, rank deficient), offsets, attainable data, means, positive definite covariances and alpha > 0", "why_tests_cant": "Equivalences over all problems.", "anchors": ["src/mud/base.py:LinearGaussianProblem.solve"]}
{"id": "C176", "title": "The units of the measurements, sensors and times do not matter", "statement": "If data, measurements and std_dev of a SpatioTemporalProblem are expressed in another unit (a non-zero factor, and an offset for each observation), and the coordinates of sensors and times in any other, then mud_problem gives the same density problem or the same exception, for every selection, method, number of components, data and sample weights; and get_closest_to_measurements returns the same parameters.", "quantifier": "all problems, units, offsets, masks (index lists, boolean arrays, slices), methods and weights", "why_tests_cant": "Two programs are compared on all problems.", "anchors": ["src/mud/base.py:SpatioTemporalProblem.mud_problem", "src/mud/base.py:SpatioTemporalProblem.get_closest_to_measurements"]}
{"id": "C177", "title": "The units of the observations do not matter in weighted mean errors", "statement": "(a) wme returns the same for predictions, data and standard deviation in another unit (a non-zero factor and an offset for each observation); without a standard deviation the same holds for one positive factor and one offset. (b) A linear WME problem is the same if each observation of each quantity of interest (operator row, datum and standard deviation) is expressed in a unit of its own.", "quantifier": "all sizes, predictions, data, operators, standard deviations, units and offsets", "why_tests_cant": "Two runs are compared on all inputs.", "anchors": ["src/mud/funs.py:wme", "src/mud/util.py:transform_linear_map", "src/mud/base.py:LinearWMEProblem.__init__"]}
{"id": "C178", "title": "A repeated sample counts as one sample with the sum of the weights", "statement": "Samples of a DensityProblem that are equal (same parameters, same output) can be replaced by one sample whose weight is the sum of theirs: expected_ratio and mud_point return the same.", "quantifier": "all problems, groupings of equal samples, weights, distributions whose density depends on the row alone, predicted densities that are nowhere zero", "why_tests_cant": "Two runs are compared on all inputs.", "anchors": ["src/mud/base.py:DensityProblem.expected_ratio", "src/mud/base.py:DensityProblem.mud_point", "src/mud/base.py:DensityProblem.set_weights"]}
