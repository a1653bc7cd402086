{"id": "C01", "title": "Giving full Kronecker entries never changes the operator's action", "statement": "A QuadraticOperator, CubicOperator or QuarticOperator constructed from full r x r^p entries applies to any state q exactly as the full matrix applied to q (x) ... (x) q, although the operator stores only compressed entries.", "quantifier": "every state dimension r, every full coefficient matrix (symmetric or not), every state vector", "why_tests_cant": "tests use a few random r and q; the identity depends on every index permutation being collected exactly once for all r", "anchors": ["src/opinf/operators/_nonparametric.py:QuadraticOperator.compress_entries", "src/opinf/operators/_nonparametric.py:CubicOperator.compress_entries", "src/opinf/operators/_nonparametric.py:QuarticOperator.compress_entries", "src/opinf/operators/_nonparametric.py:QuadraticOperator.apply"]}
{"id": "C02", "title": "compress_entries and expand_entries are mutually consistent", "statement": "compress_entries(expand_entries(Hc)) returns Hc for every compressed matrix; expand_entries(compress_entries(H)) has the same action as H and is symmetric in its state slots.", "quantifier": "every r and every compressed or full coefficient matrix of the quadratic, cubic and quartic operators", "why_tests_cant": "a wrong multiplicity for one index pattern (i=j<k, i=j=k, ...) shows only for particular patterns and r", "anchors": ["src/opinf/operators/_nonparametric.py:QuadraticOperator.expand_entries", "src/opinf/operators/_nonparametric.py:CubicOperator.expand_entries", "src/opinf/operators/_nonparametric.py:QuarticOperator.expand_entries"]}
{"id": "C03", "title": "Operator action equals entries times data block", "statement": "For every nonparametric operator, applying the operator to a snapshot (and to each column of a snapshot matrix) equals entries @ datablock column; the data block has exactly operator_dimension(r, m) rows and one column per snapshot.", "quantifier": "every r, m, k, entries, state and input", "why_tests_cant": "the regression is only meaningful if the identity holds for all data; tests check shapes on a few sizes", "anchors": ["src/opinf/operators/_nonparametric.py:datablock", "src/opinf/operators/_nonparametric.py:operator_dimension", "src/opinf/operators/_nonparametric.py:apply"]}
{"id": "C04", "title": "jacobian() is the derivative of apply()", "statement": "For every nonparametric operator, state q, direction d and step h, apply(q + h d) = apply(q) + h jacobian(q) d + h^2 (a polynomial in h): jacobian is the exact directional derivative.", "quantifier": "every r, entries, state, input, direction, step", "why_tests_cant": "finite-difference tests only sample points and have tolerance", "anchors": ["src/opinf/operators/_nonparametric.py:jacobian"]}
{"id": "C05", "title": "Cached Jacobian data never goes stale", "statement": "After any history of assigning entries, clearing and evaluating Jacobians, jacobian(q) equals the Jacobian a freshly constructed operator with the current entries would return.", "quantifier": "every finite sequence of entries assignments, deletions, jacobian and apply calls", "why_tests_cant": "histories are unbounded; a missed invalidation shows only in particular orders", "anchors": ["src/opinf/operators/_nonparametric.py:QuadraticOperator._clear", "src/opinf/operators/_nonparametric.py:QuadraticOperator._prejac", "src/opinf/operators/_base.py:OpInfOperator.entries"]}
{"id": "C06", "title": "Galerkin projection of an operator commutes with apply", "statement": "For bases V, W with W^T V = I, galerkin(V, W) of an operator applied to qhat equals W^T times the original operator applied to V qhat; without biorthogonality the result is multiplied by (W^T V)^{-1}.", "quantifier": "every operator type, n, r, V, W, entries, state, input", "why_tests_cant": "infinitely many bases; the compressed-to-full-to-compressed chain must be right for each", "anchors": ["src/opinf/operators/_base.py:OpInfOperator._galerkin", "src/opinf/operators/_nonparametric.py:galerkin"]}
{"id": "C07", "title": "PolynomialOperator agrees with the dedicated operators", "statement": "PolynomialOperator(p) has the same operator dimension and the same data block as ConstantOperator, LinearOperator, QuadraticOperator, CubicOperator and QuarticOperator for p = 0..4, so operators learned with either are interchangeable.", "quantifier": "every r and state, p = 0..4 (and for every p, the data block lists all degree-p monomials exactly once)", "why_tests_cant": "the kept-index recursion is size dependent; only a proof covers all r and p", "anchors": ["src/opinf/operators/_polynomial_operator.py:PolynomialOperator"]}
{"id": "C08", "title": "operator_dimension counts the distinct monomials", "statement": "operator_dimension(r) is C(r+p-1, p) for the degree-p operator and equals the number of rows of the data block; the state dimension recovered from a compressed column count is the r that produced it.", "quantifier": "every r", "why_tests_cant": "closed forms with integer division must agree for every r", "anchors": ["src/opinf/operators/_nonparametric.py:operator_dimension", "src/opinf/operators/_polynomial_operator.py:PolynomialOperator.operator_dimension"]}
{"id": "C09", "title": "Affine operators are the weighted sum of their terms", "statement": "Evaluating an affine operator at mu and applying it equals sum_i theta_i(mu) (A_i applied to q); the learned block entries times the parametric data block give the same value; Galerkin projection commutes with evaluation.", "quantifier": "every number of terms, coefficient function, parameter, entries, state", "why_tests_cant": "depends on block order and coefficient order agreeing between three methods", "anchors": ["src/opinf/operators/_affine.py:_AffineOperator.evaluate", "src/opinf/operators/_affine.py:_AffineOperator.datablock", "src/opinf/operators/_affine.py:_AffineOperator.set_entries"]}
{"id": "C10", "title": "A coefficient function of the wrong length is never silently accepted by an affine operator", "statement": "If the coefficient function returns a vector whose length differs from the number of terms, evaluate() does not silently drop terms.", "quantifier": "every coefficient function, parameter and number of terms", "why_tests_cant": "only particular parameter values may trigger it", "anchors": ["src/opinf/operators/_affine.py:_AffineOperator.evaluate"]}
{"id": "C11", "title": "Interpolated operators survive copy, save/load and refit whatever the parameter order", "statement": "An interpolated operator that could be constructed from given training parameters and entries can also be copied, projected, saved and re-loaded, and then evaluates to the same operator.", "quantifier": "every number and order of training parameters, every entries", "why_tests_cant": "state-dependent: the interpolator class is resolved once and remembered", "anchors": ["src/opinf/operators/_interpolate.py:_InterpOperator.set_interpolator", "src/opinf/operators/_interpolate.py:_InterpOperator.copy"]}
{"id": "C12", "title": "Interpolated operators: data block and block entries are aligned with the parameters", "statement": "For an interpolated operator, the i-th block of the learned matrix multiplies exactly the data of the i-th training parameter: block row times data block reproduces each per-parameter operator applied to its own data.", "quantifier": "every number of parameters, entries and data", "why_tests_cant": "block alignment for all sizes", "anchors": ["src/opinf/operators/_interpolate.py:_InterpOperator.datablock", "src/opinf/operators/_interpolate.py:_InterpOperator.set_entries"]}
{"id": "C13", "title": "After fit, the learned model reproduces exactly the regression residual", "statement": "After model.fit(states, lhs, inputs), for every training snapshot rhs(state, input) equals (data matrix row times learned operator matrix transposed) plus the contribution of the known operators; so regression residual = lhs - rhs.", "quantifier": "every list of operators (known and unknown, any order), every data set, every solver", "why_tests_cant": "needs alignment of data-matrix columns and extracted operator slices for every operator list", "anchors": ["src/opinf/models/mono/_nonparametric.py:_assemble_data_matrix", "src/opinf/models/mono/_nonparametric.py:_extract_operators", "src/opinf/models/mono/_nonparametric.py:rhs"]}
{"id": "C14", "title": "operator_matrix returns exactly the learned matrix", "statement": "After fit, model.operator_matrix equals the matrix returned by the solver, and setting the operators from any matrix of the right width and reading operator_matrix back is the identity; known operators are not changed.", "quantifier": "every operator list and matrix", "why_tests_cant": "slice arithmetic for all operator lists", "anchors": ["src/opinf/models/mono/_nonparametric.py:operator_matrix", "src/opinf/models/mono/_nonparametric.py:_extract_operators"]}
{"id": "C15", "title": "Discrete prediction is the recursion of the model", "statement": "DiscreteModel.predict(q0, N, U) returns N columns with column 0 = q0 and column j+1 = rhs(column j, U[:, j]); longer runs extend shorter ones and a run may be restarted from any intermediate column.", "quantifier": "every model map, initial state, N, input sequence, restart index", "why_tests_cant": "all N and split points", "anchors": ["src/opinf/models/mono/_nonparametric.py:DiscreteModel.predict"]}
{"id": "C16", "title": "Trajectory stacking never pairs snapshots across trajectories", "statement": "stack_trajectories (and ROM training-data processing) returns as (state, next state, input) triples exactly the consecutive pairs within each trajectory, none crossing a trajectory boundary, none lost.", "quantifier": "every list of trajectories with at least one snapshot each", "why_tests_cant": "boundary behaviour for all length combinations", "anchors": ["src/opinf/models/mono/_nonparametric.py:DiscreteModel.stack_trajectories", "src/opinf/roms/_base.py:_BaseROM._process_training_data"]}
{"id": "C17", "title": "Model equality ignores operator order and nothing else", "statement": "Two models compare equal iff their operator collections are equal as multisets (given operator equality is an equivalence); equality is symmetric.", "quantifier": "every pair of operator lists", "why_tests_cant": "greedy matching must be complete for all lists with repetitions", "anchors": ["src/opinf/models/mono/_base.py:_Model.__eq__"]}
{"id": "C18", "title": "Galerkin projection of a model commutes with its right-hand side", "statement": "model.galerkin(V, W).rhs(qhat, u) = W^T model.rhs(V qhat, u) (W^T V = I).", "quantifier": "every operator list, basis pair, state, input", "why_tests_cant": "follows for all operators only by proof", "anchors": ["src/opinf/models/mono/_base.py:_Model.galerkin"]}
{"id": "C19", "title": "Models built by interpolation with known operators fit the stated regression", "statement": "For InterpContinuousModel / InterpDiscreteModel with some operators given, fit() subtracts the known operators' contribution from the left-hand side exactly once.", "quantifier": "every data set and every known operator", "why_tests_cant": "the double subtraction is invisible unless known operators are nonzero", "anchors": ["src/opinf/models/mono/_parametric.py:_InterpModel._fit_solver", "src/opinf/models/mono/_parametric.py:_ParametricModel._process_fit_arguments"]}
{"id": "C20", "title": "A model that has been copied or saved and re-loaded can be refitted", "statement": "model.copy() and load(save(model)) give the same right-hand side, and calling fit() on the result trains it on the new data.", "quantifier": "every trained model and new data", "why_tests_cant": "requires the history fit -> copy/load -> fit", "anchors": ["src/opinf/models/mono/_nonparametric.py:save", "src/opinf/models/mono/_nonparametric.py:load", "src/opinf/models/mono/_base.py:_Model.copy"]}
{"id": "C21", "title": "Input arguments are required exactly when an operator uses inputs", "statement": "When the model has input operators and no inputs are given, fit and predict raise ValueError and rhs raises an error; when it has none, inputs are ignored (with a warning) and the result does not depend on them.", "quantifier": "every operator list and input argument", "why_tests_cant": "decision table over all operator lists", "anchors": ["src/opinf/models/mono/_base.py:_OpInfModel._check_inputargs"]}
{"id": "C22", "title": "L2 solver returns the minimiser of the regularised objective", "statement": "L2Solver.solve() minimises ||D O^T - Z^T||_F^2 + lambda^2 ||O||_F^2 over all O, given the SVD factors; for lambda != 0 the minimiser is unique.", "quantifier": "every data matrix, left-hand side, lambda, competitor O", "why_tests_cant": "optimality over a continuum of competitors", "anchors": ["src/opinf/lstsq/_tikhonov.py:L2Solver.solve"]}
{"id": "C23", "title": "Decoupled solvers treat every row independently with its own regulariser", "statement": "Row i of L2DecoupledSolver / TikhonovDecoupledSolver .solve() equals what the coupled solver would give for row i of the left-hand side with regulariser i.", "quantifier": "every r, data and regularisers", "why_tests_cant": "broadcasting for all shapes", "anchors": ["src/opinf/lstsq/_tikhonov.py:L2DecoupledSolver", "src/opinf/lstsq/_tikhonov.py:TikhonovDecoupledSolver"]}
{"id": "C24", "title": "Tikhonov solver minimises the weighted objective, by either method", "statement": "TikhonovSolver.solve() minimises ||D O^T - Z^T||^2 + ||Gamma O^T||^2; method='lstsq' and method='normal' agree whenever the normal matrix is invertible.", "quantifier": "every D, Z, Gamma", "why_tests_cant": "optimality over all competitors", "anchors": ["src/opinf/lstsq/_tikhonov.py:TikhonovSolver.solve"]}
{"id": "C25", "title": "get_operator_regularizer penalises each operator with its own weight", "statement": "With the diagonal regulariser built by get_operator_regularizer, the Tikhonov penalty equals sum over operators of gamma_i^2 ||entries of operator i||^2.", "quantifier": "every operator list, weights, entries", "why_tests_cant": "alignment for all operator lists", "anchors": ["src/opinf/lstsq/_tikhonov.py:TikhonovSolver.get_operator_regularizer"]}
{"id": "C26", "title": "TruncatedSVDSolver keeps the number of modes the user asked for", "statement": "For None / non-positive / positive num_svdmodes the number of retained modes after fit is all / k - |n| / min(n, k) modes, for every fit in the solver's life.", "quantifier": "every sequence of fit calls with any data sizes", "why_tests_cant": "a second fit with different size is a history property", "anchors": ["src/opinf/lstsq/_tsvd.py:TruncatedSVDSolver.fit", "src/opinf/lstsq/_tsvd.py:TruncatedSVDSolver.num_svdmodes"]}
{"id": "C27", "title": "Total least squares returns a perturbation that solves the problem exactly", "statement": "The computed O satisfies (D + dD) O^T = Z^T + dZ^T for the minimal-norm perturbation whose norm the solver reports.", "quantifier": "every D, Z for which the SVD block is invertible", "why_tests_cant": "all data", "anchors": ["src/opinf/lstsq/_total.py:TotalLeastSquaresSolver.fit"]}
{"id": "C28", "title": "A failed fit or regulariser assignment leaves the solver usable and consistent", "statement": "If fit() or an assignment to regularizer raises, solve() afterwards still corresponds to the solver's current data_matrix, lhs_matrix and regularizer.", "quantifier": "every history of fit, regulariser assignment, reset, including failing ones", "why_tests_cant": "needs histories containing failures", "anchors": ["src/opinf/lstsq/_base.py:SolverTemplate.fit", "src/opinf/lstsq/_tikhonov.py:regularizer"]}
{"id": "C29", "title": "Solver residuals and regularised residuals measure the objective", "statement": "residual(O) is row-wise ||D o_i - z_i||^2; regresidual(O) adds the regularisation term; summing gives the objective minimised by solve().", "quantifier": "every O, D, Z, regulariser", "why_tests_cant": "all inputs", "anchors": ["src/opinf/lstsq/_base.py:SolverTemplate.residual", "src/opinf/lstsq/_tikhonov.py:regresidual"]}
{"id": "C30", "title": "The Bayesian posterior is centred at the regularised solution", "statement": "posterior() returns means equal to the rows of solve() and symmetric positive definite precisions (D^T D + Gamma^T Gamma)/sigma_i (for nonsingular regularisation and positive residual).", "quantifier": "every data set and regulariser", "why_tests_cant": "all inputs", "anchors": ["src/opinf/lstsq/_tikhonov.py:posterior"]}
{"id": "C31", "title": "Finite differences are exact on polynomials up to their order", "statement": "Every forward, backward, central and mixed finite difference scheme of order p, on every uniform grid, returns the exact derivative of every polynomial of degree <= p at the time of the returned state.", "quantifier": "every polynomial, grid start, nonzero step, number of snapshots >= stencil, every scheme", "why_tests_cant": "symbolic in step, start, coefficients and column index", "anchors": ["src/opinf/ddt/_finite_difference.py:fwd1", "src/opinf/ddt/_finite_difference.py:ctr6", "src/opinf/ddt/_finite_difference.py:ord6", "src/opinf/ddt/_finite_difference.py:ddt_uniform"]}
{"id": "C32", "title": "Estimated derivatives stay aligned with returned states and inputs", "statement": "estimate(states, inputs) returns states, derivatives and inputs with the same number of columns, column j of each belonging to the same snapshot; mask(arr) selects the same columns.", "quantifier": "every scheme, number of snapshots, state dimension, data", "why_tests_cant": "slice arithmetic for all sizes and schemes", "anchors": ["src/opinf/ddt/_finite_difference.py:UniformFiniteDifferencer.estimate", "src/opinf/ddt/_finite_difference.py:UniformFiniteDifferencer.mask"]}
{"id": "C33", "title": "The accuracy self-test compares derivatives at matching times", "statement": "DerivativeEstimator.verify() compares estimated derivatives with the truth at the times of the returned states.", "quantifier": "every scheme", "why_tests_cant": "the reported number looks plausible although misaligned", "anchors": ["src/opinf/ddt/_base.py:DerivativeEstimatorTemplate.verify"]}
{"id": "C34", "title": "Second-order differences on nonuniform grids are exact on quadratics", "statement": "NonuniformFiniteDifferencer / ddt_nonuniform return the exact derivative of any polynomial of degree <= 2 at every grid point of any strictly increasing grid.", "quantifier": "every grid, polynomial", "why_tests_cant": "all grids", "anchors": ["src/opinf/ddt/_finite_difference.py:NonuniformFiniteDifferencer", "src/opinf/ddt/_finite_difference.py:ddt_nonuniform"]}
{"id": "C35", "title": "Transformers are invertible on every state", "statement": "inverse_transform(transform(q)) = q for shift, scale, shift-scale, null, pipeline and multi-variable transformers, whenever the scalings are nonzero, for whole states or at selected locations.", "quantifier": "every state, calibration data, option combination, selection of locations", "why_tests_cant": "all option combinations and data", "anchors": ["src/opinf/pre/_shiftscale.py:ShiftScaleTransformer.inverse_transform", "src/opinf/pre/_multi.py:TransformerPipeline", "src/opinf/pre/_multi.py:TransformerMulti"]}
{"id": "C36", "title": "Scaled training data land in the promised range", "statement": "After fit_transform, training data have the promised statistics (minmax: range exactly [0,1]; minmaxsym: [-1,1]; maxabs: max |q| = 1; mean-centred: zero row means).", "quantifier": "every non-constant data set and option", "why_tests_cant": "all data", "anchors": ["src/opinf/pre/_shiftscale.py:ShiftScaleTransformer.fit_transform"]}
{"id": "C37", "title": "transform_ddts is the derivative of transform", "statement": "transform(q + h d) - transform(q) = h transform_ddts(d) for every transformer that supports derivatives, including pipelines and multi-variable transformers.", "quantifier": "every q, d, h", "why_tests_cant": "all data", "anchors": ["src/opinf/pre/_shiftscale.py:transform_ddts", "src/opinf/pre/_multi.py:TransformerPipeline.transform_ddts"]}
{"id": "C38", "title": "Calibration is deterministic: fit_transform equals fit then transform", "statement": "fit_transform(Q) returns the same as fit(Q) followed by transform(Q); transforming never changes the calibration; inplace only decides which array holds the result.", "quantifier": "every data set, option, history of calls", "why_tests_cant": "histories", "anchors": ["src/opinf/pre/_shiftscale.py:ShiftScaleTransformer", "src/opinf/pre/_base.py:TransformerTemplate.fit"]}
{"id": "C39", "title": "Multi-variable splitting is a partition", "statement": "split() of a joint state returns the variables in order, concatenating them gives the state back, get_var(i) is the i-th part; wrong-length states are rejected.", "quantifier": "every list of variable sizes and state", "why_tests_cant": "all size lists", "anchors": ["src/opinf/pre/_multi.py:TransformerMulti._slices", "src/opinf/pre/_multi.py:TransformerMulti.split", "src/opinf/basis/_multi.py:BasisMulti.split"]}
{"id": "C40", "title": "Saved transformers load back equal", "statement": "load(save(T)) == T and transforms identically for every transformer, including its name.", "quantifier": "every calibrated or uncalibrated transformer", "why_tests_cant": "all attribute combinations", "anchors": ["src/opinf/pre/_shiftscale.py:save", "src/opinf/pre/_shiftscale.py:load"]}
{"id": "C41", "title": "Lifting is invertible and differentiates correctly", "statement": "unlift(lift(q)) = q for the quadratic lifter and for polynomial lifters whose orders include 1; lift_ddts(q, dq) is the derivative of lift along dq.", "quantifier": "every state, derivative and list of orders", "why_tests_cant": "all orders and states", "anchors": ["src/opinf/lift/_polynomial.py:QuadraticLifter", "src/opinf/lift/_polynomial.py:PolynomialLifter"]}
{"id": "C42", "title": "Linear bases project", "statement": "With V^T W V = I, compress(decompress(z)) = z, project is idempotent, decompress(z, locs) = decompress(z)[locs], and project(q) is the closest point of the basis span.", "quantifier": "every basis, weights, state, location list", "why_tests_cant": "all inputs", "anchors": ["src/opinf/basis/_linear.py:LinearBasis", "src/opinf/basis/_base.py:BasisTemplate.project"]}
{"id": "C43", "title": "POD dimension criteria choose the smallest adequate dimension", "statement": "cumulative_energy chooses the smallest r with captured energy >= threshold; residual_energy and projection_error choose the smallest r whose residual is <= threshold.", "quantifier": "every nonincreasing singular value list and threshold", "why_tests_cant": "ties and boundary thresholds", "anchors": ["src/opinf/basis/_pod.py:PODBasis._set_dimension_from_criterion", "src/opinf/basis/_pod.py:residual_energy", "src/opinf/basis/_pod.py:cumulative_energy"]}
{"id": "C44", "title": "POD entries always are the leading r left singular vectors", "statement": "After any history of fit, set_dimension and reduced_state_dimension assignments, entries are the first reduced_state_dimension stored left vectors, reduced_state_dimension <= max_vectors, and the reported energies are those of that dimension.", "quantifier": "every call history", "why_tests_cant": "histories", "anchors": ["src/opinf/basis/_pod.py:PODBasis.reduced_state_dimension", "src/opinf/basis/_pod.py:PODBasis.set_dimension"]}
{"id": "C45", "title": "A saved POD basis loads back with the same dimension", "statement": "load(save(basis)) has the same entries and reduced_state_dimension; load(max_vectors=m) never increases the reduced dimension.", "quantifier": "every basis and call history before saving", "why_tests_cant": "the criterion and the current dimension can diverge in a history", "anchors": ["src/opinf/basis/_pod.py:PODBasis.save", "src/opinf/basis/_pod.py:PODBasis.load"]}
{"id": "C46", "title": "Multi-variable bases act block-wise", "statement": "BasisMulti compress/decompress act on each variable with its own basis; project is the concatenation of the projections; locs selects the same entries of each variable.", "quantifier": "every list of bases and state", "why_tests_cant": "slice arithmetic incl. the ambiguous case where reduced and full dimensions coincide", "anchors": ["src/opinf/basis/_multi.py:BasisMulti.compress", "src/opinf/basis/_multi.py:BasisMulti.decompress", "src/opinf/basis/_multi.py:BasisMulti._check_is_reduced"]}
{"id": "C47", "title": "A ROM's prediction is decode of the model's prediction from the encoded state", "statement": "ROM.encode applies lift, transform, compress in this order and decode undoes them; project is idempotent when the parts are invertible/projections; predict(q0) = decode(model.predict(encode(q0))); decode with locs restricts decode.", "quantifier": "every combination of present/absent lifter, transformer, basis", "why_tests_cant": "all combinations and data", "anchors": ["src/opinf/roms/_base.py:_BaseROM.encode", "src/opinf/roms/_base.py:_BaseROM.decode", "src/opinf/roms/_nonparametric.py:ROM.predict"]}
{"id": "C48", "title": "Grid search never returns something worse than a candidate", "statement": "gridsearch returns a point whose function value is <= the value at every candidate; if every candidate gives inf it raises RuntimeError; NaN never wins.", "quantifier": "every function, candidate list and optimiser outcome", "why_tests_cant": "all functions and optimiser behaviours", "anchors": ["src/opinf/utils/_gridsearch.py:gridsearch"]}
{"id": "C49", "title": "Regularisation selection never selects an unstable candidate and leaves the model fitted with the winner", "statement": "fit_regselect_* ends with the model operators equal to those obtained with the selected regularisation, which was stable on all training and test trajectories, or raises.", "quantifier": "every candidate list, error function and optimiser outcome", "why_tests_cant": "the model is re-fitted during the search; the final state must not be the last-tried candidate", "anchors": ["src/opinf/roms/_base.py:_BaseROM.fit_regselect_continuous", "src/opinf/roms/_base.py:_BaseROM.fit_regselect_discrete"]}
{"id": "C50", "title": "Regularisation selection can be repeated after the basis dimension changed", "statement": "Calling fit_regselect_* a second time with a different reduced dimension works as on a fresh ROM.", "quantifier": "every sequence of calls", "why_tests_cant": "history of two calls with different dimensions", "anchors": ["src/opinf/roms/_base.py:_BaseROM.fit_regselect_continuous"]}
{"id": "C51", "title": "Saving with overwrite=False never destroys an existing file", "statement": "save(file, overwrite=False) on an existing file raises FileExistsError and leaves every file unchanged; load never changes a file; a save changes at most the named file, and a name without .h5 only gives a warning.", "quantifier": "every file system state and history of saves/loads", "why_tests_cant": "histories over file system states", "anchors": ["src/opinf/utils/_hdf5.py:hdf5_savehandle", "src/opinf/utils/_hdf5.py:hdf5_loadhandle"]}
{"id": "C52", "title": "Loading a saved object twice or after saving another one gives the last saved object", "statement": "For any history of saves to files, load(file) returns the object most recently saved to that file.", "quantifier": "every history of saves with overwrite true/false and failures in between", "why_tests_cant": "histories and crash points", "anchors": ["src/opinf/utils/_hdf5.py:hdf5_savehandle"]}
{"id": "C53", "title": "Timed blocks report and enforce time limits", "statement": "A TimedBlock without nested blocks raises TimeoutException iff the limit elapses inside the block; after the block no alarm is pending.", "quantifier": "every nesting and schedule of alarms", "why_tests_cant": "schedules", "anchors": ["src/opinf/utils/_timer.py:TimedBlock"]}
{"id": "C54", "title": "Error measures are zero exactly for equal data and scale correctly", "statement": "Absolute errors are >= 0 and 0 iff the data agree; relative error is invariant under common scaling; misaligned data are rejected.", "quantifier": "every data pair and scaling", "why_tests_cant": "all data", "anchors": ["src/opinf/post/_errors.py:frobenius_error", "src/opinf/post/_errors.py:lp_error", "src/opinf/post/_errors.py:Lp_error"]}
{"id": "C55", "title": "Drawing operators from a saved posterior works as from the original", "statement": "OperatorPosterior.load(save(p)) equals p and rvs() returns a matrix with the same shape (r, d).", "quantifier": "every posterior", "why_tests_cant": "the library returns differently shaped draws for the two internal representations", "anchors": ["src/opinf/roms/_bayes.py:OperatorPosterior.rvs", "src/opinf/roms/_bayes.py:OperatorPosterior.load"]}
{"id": "C56", "title": "lstsq_size equals the number of columns of the data matrix", "statement": "lstsq_size(modelform, r, m, affines) equals the number of columns of the data matrix the corresponding model assembles.", "quantifier": "every model form, r, m, affine term counts", "why_tests_cant": "all forms", "anchors": ["src/opinf/lstsq/_base.py:lstsq_size"]}
{"id": "C57", "title": "Model construction accepts exactly the well-formed operator lists", "statement": "A model can be constructed iff no two operators to be inferred are of the same type and all given entries agree on state and input dimensions; the reported state and input dimension are then those of every operator.", "quantifier": "every operator list", "why_tests_cant": "decision logic over all lists", "anchors": ["src/opinf/models/mono/_base.py:_Model.operators", "src/opinf/models/mono/_nonparametric.py:_check_operator_types_unique"]}
{"id": "C58", "title": "Parametric models evaluate consistently", "statement": "For a parametric model, rhs(mu, q, u) equals the right-hand side of evaluate(mu) at (q, u), and the sum over operators of the evaluated operators; fitted block entries reproduce the parametric regression. After any calls of evaluate(), rhs(), jacobian() and predict() at parameters of the same dimension, successful or not, all results are those of the unused model; if all operators know their parameter dimension, no such call changes the model at all.", "quantifier": "every parameter, operators, state, input", "why_tests_cant": "all", "anchors": ["src/opinf/models/mono/_parametric.py:_ParametricModel.evaluate", "src/opinf/models/mono/_parametric.py:_ParametricModel.rhs"]}
{"id": "C59", "title": "A failed fit leaves no stale learned operators", "statement": "After any fit() that raises, every operator to be inferred is unset, the operators given with entries are unchanged, and operator_matrix and predict() raise AttributeError until a fit succeeds.", "quantifier": "every model, training data and solver failure", "why_tests_cant": "all failure points", "anchors": ["src/opinf/models/mono/_nonparametric.py:_NonparametricModel.fit", "src/opinf/models/mono/_base.py:_OpInfModel._clear"]}
{"id": "C60", "title": "Fitting a model again forgets earlier fits", "statement": "After any sequence of fit() calls (successful or not), a further fit() gives the same outcome and the same operators as the same fit() on the freshly constructed model, for solvers whose solution depends only on the last data.", "quantifier": "every history of fits", "why_tests_cant": "unbounded histories", "anchors": ["src/opinf/models/mono/_nonparametric.py:_NonparametricModel.fit", "src/opinf/models/mono/_base.py:_OpInfModel._clear"]}
{"id": "C61", "title": "A rejected assignment to operators leaves the model unchanged", "statement": "If model.operators = ops raises, the model behaves as before the assignment.", "quantifier": "every model and operator list", "why_tests_cant": "all rejection points", "anchors": ["src/opinf/models/mono/_base.py:_OpInfModel.operators"]}
{"id": "C62", "title": "Learned operators are optimal for the training data", "statement": "After model.fit(states, lhs, inputs) succeeds with a PlainSolver, L2Solver or TikhonovSolver, the sum over training snapshots of ||lhs_j - model.rhs(state_j, input_j)||^2 plus the solver's penalty on operator_matrix is no larger than for any other choice of the entries of the operators being learned, the known operators being kept.", "quantifier": "every mix of known and learned operators, every data set, inputs and regularization for which fit succeeds, and every competing operator matrix", "why_tests_cant": "the minimum is over a continuum of competitors and every operator mix", "anchors": ["src/opinf/models/mono/_nonparametric.py:_NonparametricModel.fit", "src/opinf/lstsq/_tikhonov.py:L2Solver", "src/opinf/lstsq/_tikhonov.py:TikhonovSolver", "src/opinf/lstsq/_base.py:PlainSolver"]}
{"id": "C63", "title": "DiscreteModel.fit pairs each state with its successor", "statement": "DiscreteModel.fit(states, inputs=inputs) without next states minimises the one-step residuals states[:, j+1] - rhs(states[:, j], inputs[:, j]) for all j but the last; surplus inputs are ignored.", "quantifier": "every trajectory, operator mix and solver", "why_tests_cant": "an off-by-one pairing still trains without error", "anchors": ["src/opinf/models/mono/_nonparametric.py:DiscreteModel.fit"]}
{"id": "C64", "title": "Noise-free discrete trajectories are reproduced", "statement": "If a trajectory follows some choice of the operators to be learned exactly, a DiscreteModel trained on it with a PlainSolver predicts the same trajectory from its first state and inputs.", "quantifier": "every exactly representable trajectory, operator mix, known operators and inputs", "why_tests_cant": "holds across assembly, solve, extraction and prediction together, for every length", "anchors": ["src/opinf/models/mono/_nonparametric.py:DiscreteModel.fit", "src/opinf/models/mono/_nonparametric.py:DiscreteModel.predict"]}
{"id": "C65", "title": "Bayesian regularization selection ends with the posterior of the selected regularization", "statement": "If BayesianROM.fit_regselect_* completes, the posterior exists and is that of the (reset and refitted) solver with the selected regularizer; a repeated call does not depend on earlier ones except through the random numbers; draw_operators() makes the drawn matrix the operator matrix of the model; an exception for one candidate other than LinAlgError ends the selection.", "quantifier": "every sequence of calls, candidates, solver, random numbers", "why_tests_cant": "draws are random, histories unbounded", "anchors": ["src/opinf/roms/_bayes.py:_BayesianROMMixin.fit_regselect_discrete", "src/opinf/roms/_bayes.py:_BayesianROMMixin.draw_operators"]}
{"id": "C66", "title": "Affine operators survive copy() and save()/load()", "statement": "copy() of an affine operator, and load() of its saved file with the same coefficient functions, give an operator that evaluates identically, has the same number of terms and accepts the same parameter dimension.", "quantifier": "every affine operator class, number of terms, entries (set or not) and form of the coefficients argument", "why_tests_cant": "every form of the coefficients argument and every parameter dimension", "anchors": ["src/opinf/operators/_affine.py:_AffineOperator.copy", "src/opinf/operators/_affine.py:_AffineOperator.save", "src/opinf/operators/_affine.py:_AffineOperator.load"]}
{"id": "C67", "title": "A parametric model with a known interpolated operator can be fitted", "statement": "For a parametric model in which an interpolated operator is given with entries and another operator is to be inferred, fit() with acceptable data trains the remaining operators.", "quantifier": "every such model, data set and solver", "why_tests_cant": "the combination of a known interpolated operator with others to infer is not exercised", "anchors": ["src/opinf/models/mono/_parametric.py:_ParametricModel._fit_solver", "src/opinf/operators/_interpolate.py:_InterpolatedOperator.set_training_parameters"]}
{"id": "C68", "title": "An interpolatory model can be fitted again", "statement": "After a successful fit() of an interpolatory model, fit() with the same parameters and refit() succeed again.", "quantifier": "every interpolatory model, training parameters and data", "why_tests_cant": "fails only for unsorted scalar parameters, on the second call", "anchors": ["src/opinf/models/mono/_parametric.py:_InterpModel.refit", "src/opinf/operators/_interpolate.py:_InterpolatedOperator.set_interpolator"]}
{"id": "C69", "title": "The training data of a reduced-order model are the encoded trajectories", "statement": "ROM.fit() calibrates the transformer on all lifted trajectories together and the basis on all transformed trajectories together (if asked to), leaves the lifter and anything not to be fitted unchanged, and trains the model on exactly what encode() of the calibrated model gives for each trajectory: with the given left-hand sides encoded alongside, with consecutive encoded states for fully discrete models (never crossing from one trajectory to the next), or with the estimator applied to the encoded states. One trajectory is the same as a list of one; missing left-hand sides or inputs raise ValueError before anything changes.", "quantifier": "every lifter, transformer, basis, estimator, number and lengths of trajectories, presence of inputs and left-hand sides", "why_tests_cant": "tests check shapes of the processed data for a few trajectories with mocked components", "anchors": ["src/opinf/roms/_base.py:_BaseROM._process_training_data", "src/opinf/roms/_base.py:_BaseROM._fix_single_trajectory", "src/opinf/roms/_base.py:_BaseROM._check_fit_args"]}
{"id": "C70", "title": "Training a reduced-order model minimises the residual over all trajectories", "statement": "After a successful ROM.fit(), the operators of the model minimise the sum over all snapshots of all trajectories of the squared difference between the encoded left-hand side and the model evaluated at the encoded state (plus the regularization of the solver), among all values of the operators to be learned.", "quantifier": "every set of aligned trajectories, all combinations of operators (known ones included), PlainSolver, L2Solver and TikhonovSolver; fully discrete and time-continuous models", "why_tests_cant": "tests check that fit() runs; optimality over several trajectories is not asserted", "anchors": ["src/opinf/roms/_nonparametric.py:ROM.fit", "src/opinf/roms/_base.py:_BaseROM._fit_model", "src/opinf/models/mono/_nonparametric.py:_NonparametricModel.fit"]}
{"id": "C71", "title": "Trajectories with mismatching left-hand sides or inputs are refused", "statement": "ROM.fit() refuses training data in which the number of input trajectories or the widths of left-hand sides or inputs do not match those of the states, instead of pairing them differently.", "quantifier": "every list of trajectories with mismatching lists or widths", "why_tests_cant": "tests pass well-formed lists only", "anchors": ["src/opinf/roms/_base.py:_BaseROM._process_training_data", "src/opinf/roms/_base.py:_BaseROM._fit_model"]}
{"id": "C72", "title": "Selecting the regularization of a reduced-order model leaves what training with the selected regularization gives", "statement": "A successful fit_regselect_discrete()/fit_regselect_continuous() leaves the ROM (transformer, basis, model) exactly as ROM.fit() with the same training data does when the selected regularization is set beforehand; the selected regularization is never worse than a candidate in mean relative error of the predictions, started from the first encoded snapshot, over the trajectories for which all predictions and test cases are stable. Arguments that do not fit are refused before anything is changed.", "quantifier": "every ROM with a nonparametric model whose solver is regularized, all lists of trajectories, inputs, candidates, test cases and optimisers", "why_tests_cant": "tests check that the call returns and that the operators are not None", "anchors": ["src/opinf/roms/_base.py:_BaseROM.fit_regselect_discrete", "src/opinf/roms/_base.py:_BaseROM.fit_regselect_continuous", "src/opinf/roms/_base.py:_BaseROM._fit_model", "src/opinf/roms/_base.py:_BaseROM._get_stability_limits", "src/opinf/roms/_base.py:_BaseROM._process_test_cases"]}
{"id": "C73", "title": "The selected model is stable over the test horizon", "statement": "The model selected with num_test_iters=N (test_time_length=T) stays within the stability margin of the training data in each of the N iterations (during the time T) after the training data, and its predictions are numbers there.", "quantifier": "every ROM, trajectories, and test horizon", "why_tests_cant": "tests use horizons for which the trained model is stable anyway", "anchors": ["src/opinf/roms/_base.py:_BaseROM.fit_regselect_discrete", "src/opinf/roms/_base.py:_BaseROM.fit_regselect_continuous"]}
{"id": "C74", "title": "A POD basis is orthonormal and approximates the training states best", "statement": "After PODBasis.fit() with the dense SVD, and after any later changes of the dimension, the entries are orthonormal in the inner product given by the weights; no other basis with as many vectors, with whatever coefficients, approximates the training states with a smaller sum of squared (weighted) errors than project(); residual_energy is that error divided by the squared (weighted) norm of the training states and cumulative_energy is the rest.", "quantifier": "every training matrix, no weights, diagonal weights or a weight matrix, every dimension criterion, every sequence of dimension changes", "why_tests_cant": "tests check orthonormality and energies on random matrices; optimality among all bases is not testable", "anchors": ["src/opinf/basis/_pod.py:PODBasis.fit", "src/opinf/basis/_pod.py:PODBasis.reduced_state_dimension", "src/opinf/basis/_pod.py:PODBasis.set_dimension"]}
{"id": "C75", "title": "The method of snapshots yields the POD of the training states", "statement": "method_of_snapshots() returns all singular values whose squares (divided by the number of snapshots) exceed the threshold, with orthonormal left vectors (in the inner product given by the weights) and right vectors; a POD basis fitted with it approximates the training states best, and residual_energy is the relative squared projection error.", "quantifier": "every set of snapshots, weights and threshold", "why_tests_cant": "tests use matrices with more rows than columns and compare leading vectors only; the loss of the smallest singular value hides in the tolerance", "anchors": ["src/opinf/basis/_pod.py:method_of_snapshots", "src/opinf/basis/_pod.py:PODBasis.fit"]}
{"id": "C76", "title": "Training recovers the model that generated the data", "statement": "If the left-hand side data are the outputs of a model with the same operators (known ones included) at the given states and inputs, and no nonzero linear combination of the data entries vanishes at all snapshots, then fit() with PlainSolver (or L2Solver with regularizer zero) sets the operators to be learned to exactly those of the generating model; the same for a fully discrete model trained on a trajectory of another one. Without the condition the data do not determine the operators.", "quantifier": "every combination of operators to learn and known operators, every state and input dimension, every number of snapshots", "why_tests_cant": "tests check single examples up to a tolerance; they cannot show that recovery happens whenever the data are informative", "anchors": ["src/opinf/models/mono/_nonparametric.py:_NonparametricModel.fit", "src/opinf/models/mono/_nonparametric.py:DiscreteModel.fit", "src/opinf/lstsq/_base.py:PlainSolver.solve"]}
{"id": "C77", "title": "Re-projected data belong to the intrusive reduced-order model, and training on them recovers it", "statement": "reproject_discrete() returns the trajectory of the Galerkin projection of the full-order model, started from the compressed initial state; reproject_continuous() returns the compressed states and the right-hand side of the Galerkin projection at them. Training a model with operators of the same classes on these data yields exactly the Galerkin projection if the data are informative, and a discrete model reproduces the re-projected trajectory in any case. Misaligned initial states or states are refused.", "quantifier": "every full-order polynomial model, orthonormal basis, initial state, states, and one- or two-dimensional inputs; the iteration itself for every system", "why_tests_cant": "tests check the shapes of the outputs", "anchors": ["src/opinf/utils/_reprojection.py:reproject_discrete", "src/opinf/utils/_reprojection.py:reproject_continuous", "src/opinf/models/mono/_base.py:_Model.galerkin"]}
{"id": "C78", "title": "The Jacobian of a model is the derivative of its right-hand side", "statement": "For a trained model, jacobian(state, input_) is an (r, r) matrix J with rhs(q + t d, u) = rhs(q, u) + t J d + O(t^2) exactly (the remainder is a polynomial in t with coefficients that do not depend on t), for every direction d, and the only such matrix.", "quantifier": "every combination of operators, trained model, state, input and direction", "why_tests_cant": "tests compare with finite differences for a few random models", "anchors": ["src/opinf/models/mono/_nonparametric.py:_NonparametricModel.jacobian", "src/opinf/models/mono/_nonparametric.py:_NonparametricModel.rhs"]}
{"id": "C79", "title": "ContinuousModel.predict() integrates the right-hand side of the model with the given inputs", "statement": "predict() calls the integrator exactly when the model is trained, the initial state has shape (r,), the time domain is a nonempty vector and the inputs are acceptable (a function whose value at the first time is a vector of length m, or a number if m = 1, or an array with one column for each time); the integrated function is rhs with the value of the input function (numbers as vectors of length one; at the given times the columns of an input array), from the first to the last time, evaluated at the given times. BDF, Radau and LSODA get the exact Jacobian of this function. For models without inputs the argument input_func is irrelevant. All other arguments raise the documented errors.", "quantifier": "every model, initial state, time domain, input function or array, integration method", "why_tests_cant": "tests run single integrations and check the shape of the result", "anchors": ["src/opinf/models/mono/_nonparametric.py:ContinuousModel.predict", "src/opinf/models/mono/_nonparametric.py:ContinuousModel.rhs", "src/opinf/models/mono/_nonparametric.py:ContinuousModel.jacobian"]}
{"id": "C80", "title": "InterpDerivativeEstimator returns the interpolated states, their derivatives and the inputs at the same times, and mask() agrees with it", "statement": "estimate(states[, inputs]) succeeds exactly for two-dimensional states (and inputs, one- or two-dimensional) with one column for each time which the interpolator accepts. The returned derivatives are those of the interpolant of the states at new_time_domain (at time_domain if there is none); the returned states and inputs are the interpolants at these times, and the arguments themselves if there is no new_time_domain. All have the same number of columns. mask(states) is the first and mask(inputs) the last return value. New times taken from the time domain select the corresponding snapshots, passing the time domain itself changes nothing, and trajectories reproduced by the interpolator have exact derivatives. The constructor accepts exactly one-dimensional time domains and the documented interpolators.", "quantifier": "every time domain, new time domain, interpolator, states and inputs", "why_tests_cant": "tests compare single interpolators with finite tolerances on one grid", "anchors": ["src/opinf/ddt/_interpolation.py:InterpDerivativeEstimator.estimate", "src/opinf/ddt/_interpolation.py:InterpDerivativeEstimator.mask", "src/opinf/ddt/_interpolation.py:InterpDerivativeEstimator.__init__", "src/opinf/ddt/_base.py:DerivativeEstimatorTemplate._check_dimensions"]}
{"id": "C81", "title": "verify() leaves an InterpDerivativeEstimator as it was", "statement": "After verify(), whether it reports errors or raises, the estimator has the same time domain, new time domain and interpolator as before, so that estimate() gives the same results. The checks of output shapes pass whenever the interpolator accepts the data.", "quantifier": "every estimator, every outcome of the interpolator on the verification data", "why_tests_cant": "tests only run verifications that succeed", "anchors": ["src/opinf/ddt/_interpolation.py:InterpDerivativeEstimator.verify", "src/opinf/ddt/_base.py:DerivativeEstimatorTemplate.verify", "src/opinf/ddt/_base.py:DerivativeEstimatorTemplate.verify_shapes"]}
{"id": "C82", "title": "Solvers survive save()/load() and copy()", "statement": "For every solver class, saving a solver and loading the file gives a solver with the same options, regularizer, data and results of solve(), at any point of its history, and leaves other files alone; copy() gives the same solver. Saving a solver that was constructed but not trained works as well.", "quantifier": "every solver class (PlainSolver, L2Solver, L2DecoupledSolver, TikhonovSolver, TikhonovDecoupledSolver, TruncatedSVDSolver, TotalLeastSquaresSolver), every history of operations, file and options", "why_tests_cant": "tests save and load a few solvers after one successful fit", "anchors": ["src/opinf/lstsq/_base.py:PlainSolver.save", "src/opinf/lstsq/_base.py:PlainSolver.load", "src/opinf/lstsq/_tikhonov.py:_BaseRegularizedSolver._save", "src/opinf/lstsq/_tikhonov.py:_BaseRegularizedSolver._load", "src/opinf/lstsq/_tsvd.py:TruncatedSVDSolver.save", "src/opinf/lstsq/_tsvd.py:TruncatedSVDSolver.load", "src/opinf/lstsq/_total.py:TotalLeastSquaresSolver.save", "src/opinf/lstsq/_total.py:TotalLeastSquaresSolver.load", "src/opinf/lstsq/_base.py:SolverTemplate._save_dict", "src/opinf/lstsq/_base.py:SolverTemplate._load_dict"]}
{"id": "C83", "title": "Interpolatory models made from trained models agree with them, and survive copies, files and changes of the interpolator", "statement": "An interpolatory parametric model made from trained models (with the same operator classes in the same order, distinct parameter values and an interpolator that interpolates) evaluates, at each of the parameter values, to a model with the operators, dimensions, right-hand side, Jacobian and predictions of the model given for it. copy() and save()/load() give a model that behaves the same at every parameter value and can be copied and saved again; save() warns exactly if the interpolator class has to be passed to load(); set_interpolator() changes nothing but the interpolator. Misaligned or untrained models are refused.", "quantifier": "every list of trained models, parameter values in any order, interpolator class, and every history of copies, files and changes of the interpolator", "why_tests_cant": "tests use a few sorted parameter values", "anchors": ["src/opinf/models/mono/_parametric.py:_InterpModel._from_models", "src/opinf/models/mono/_parametric.py:_InterpModel.copy", "src/opinf/models/mono/_parametric.py:_InterpModel.save", "src/opinf/models/mono/_parametric.py:_InterpModel.load", "src/opinf/models/mono/_parametric.py:_InterpModel.set_interpolator", "src/opinf/models/mono/_base.py:_Model.copy"]}
{"id": "C84", "title": "A model saved to a file is the model loaded from it", "statement": "After save() (with overwrite or to a new path), load() gives a model with the same operators in the same roles, the same dimensions, solver, right-hand side, Jacobian and predictions, trained or not; other files are unchanged. If writing the solver raises, save() raises as well. An existing file is refused with FileExistsError and stays as it is without overwrite=True; load() raises nothing but FileNotFoundError and LoadfileFormatError.", "quantifier": "every nonparametric model (trained, or constructed with any solver), file system, path and overwrite flag", "why_tests_cant": "tests compare a few saved and loaded models; they never train a loaded model", "anchors": ["src/opinf/models/mono/_nonparametric.py:_NonparametricModel.save", "src/opinf/models/mono/_nonparametric.py:_NonparametricModel.load", "src/opinf/operators/_base.py:OpInfOperator.save", "src/opinf/operators/_base.py:OpInfOperator.load"]}
{"id": "C85", "title": "Training a parametric model is optimal over all training parameters", "statement": "After a successful fit() of a parametric model (constant, affine and interpolated operators, some of them known), no other entries that set_entries() accepts for the operators to infer give a smaller value of the sum, over the snapshots of all training parameters, of ||lhs - rhs(mu, q, u)||^2 plus the penalty of the solver (lambda^2||O||^2 for L2Solver, none for PlainSolver, ||Gamma O^T||^2 for TikhonovSolver, O being the matrix of all these entries). In particular PlainSolver reproduces data that some choice of the entries reproduces.", "quantifier": "every parametric model with operators to infer, every training set, every competing choice of entries and of interpolating classes", "why_tests_cant": "tests check shapes of the learned entries and a few recovered operators; they do not compare with all other entries", "anchors": ["src/opinf/models/mono/_parametric.py:_ParametricModel.fit", "src/opinf/models/mono/_parametric.py:_ParametricModel.refit", "src/opinf/models/mono/_parametric.py:_ParametricModel._assemble_data_matrix", "src/opinf/operators/_affine.py:AffineOperator.datablock", "src/opinf/operators/_interpolate.py:_InterpolatedOperator.datablock"]}
{"id": "C86", "title": "Parametric reduced-order models train on the encoded trajectories and reproduce what their model class can represent", "statement": "ParametricROM.fit() calibrates the transformer and the basis to all trajectories together and trains the model with the parameters and the encoding of every trajectory: encode(states, lhs) with left-hand sides; the encoded states without the last and without the first one for fully discrete models (with as many inputs); what the derivative estimator makes of the encoded states for time-continuous ones. Missing left-hand sides (without estimator) or inputs are refused with ValueError and change nothing. The learned operators are optimal for these data. If some entries of the operators to infer reproduce the encoded trajectories of a fully discrete model exactly, then predict() at a training parameter, from a state with the encoding of the first snapshot, gives the projection of the training trajectory. A two-dimensional initial state is refused.", "quantifier": "every transformer, basis, lifter, estimator, parametric model (affine, interpolated, constant operators, known or to infer), list of parameters, trajectories, left-hand sides and inputs", "why_tests_cant": "tests train a few models with mock components and compare shapes", "anchors": ["src/opinf/roms/_parametric.py:ParametricROM.fit", "src/opinf/roms/_parametric.py:ParametricROM.predict", "src/opinf/roms/_base.py:_BaseROM._fit_model", "src/opinf/roms/_base.py:_BaseROM._process_training_data", "src/opinf/roms/_base.py:_BaseROM._check_fit_args", "src/opinf/models/mono/_parametric.py:_ParametricDiscreteMixin.fit"]}
{"id": "C87", "title": "Parametric training data of different lengths are refused", "statement": "ParametricROM.fit() raises unless there is one trajectory, one left-hand side (if given) and one input array (if the model has inputs) for each parameter; in particular no data are silently left out of the training.", "quantifier": "every parametric reduced-order model with operators to infer, and every number of parameters, trajectories, left-hand sides and inputs", "why_tests_cant": "tests pass lists of the wrong length in one or two places; whether the surplus is noticed depends on the combination of lifter, estimator, time-continuous or discrete model and the given arguments", "anchors": ["src/opinf/roms/_parametric.py:ParametricROM.fit", "src/opinf/roms/_base.py:_BaseROM._process_training_data", "src/opinf/models/mono/_parametric.py:_ParametricModel._process_fit_arguments", "src/opinf/models/mono/_parametric.py:_ParametricDiscreteMixin.fit"]}
{"id": "C88", "title": "Selecting the regularization of a parametric reduced-order model is training with the selected regularization", "statement": "If fit_regselect_discrete() or fit_regselect_continuous() of a ParametricROM succeeds, the reduced-order model is exactly what fit() with the same parameters and training data gives when the selected regularization is set beforehand, the model is stable on all test cases and training trajectories, and no candidate for which training gives a stable model has a smaller error; whenever fit() with a candidate gives a stable model the selection succeeds, and a later fit() uses the selected regularization.", "quantifier": "every parametric reduced-order model (one regression problem or interpolatory), candidates, parameters, training data, test cases and solvers with a regularizer", "why_tests_cant": "the search leaves a history of refits behind; tests check that the call returns for one ordered set of parameters, not that the outcome equals that of training from scratch", "anchors": ["src/opinf/roms/_base.py:_BaseROM.fit_regselect_discrete", "src/opinf/roms/_base.py:_BaseROM.fit_regselect_continuous", "src/opinf/roms/_base.py:_BaseROM._fit_model", "src/opinf/models/mono/_parametric.py:_InterpModel.refit", "src/opinf/operators/_interpolate.py:_InterpolatedOperator.set_interpolator"]}
{"id": "C89", "title": "verify() of a transformer accepts exactly the consistent transformers", "statement": "verify(tol) of a calibrated transformer returns without an exception if inverse_transform() undoes transform(), also at selected locations, and transform_ddts() is the derivative of transform(); in particular for every calibrated built-in transformer, pipeline and multi-variable transformer, for every tol >= 0 and whatever the random numbers. If it returns, the drawn states are recovered up to the tolerances of numpy.allclose, also at the drawn locations, finite differences of the transformed states agree with the transformed finite differences up to tol, and calls with inplace=False leave their argument alone. Without a state dimension it raises AttributeError.", "quantifier": "every transformer (built-in or user-defined), pipeline and multi-variable transformer, tolerance and outcome of the random numbers", "why_tests_cant": "verify() draws random states and locations, so that a test sees one outcome; it is run on few combinations of options, not on byrow without scaling or on nested transformers", "anchors": ["src/opinf/pre/_base.py:TransformerTemplate.verify", "src/opinf/pre/_base.py:TransformerTemplate._verify_locs", "src/opinf/pre/_multi.py:TransformerMulti.verify", "src/opinf/pre/_multi.py:TransformerMulti._verify_locs", "src/opinf/ddt/_finite_difference.py:ddt_nonuniform"]}
{"id": "C90", "title": "verify() of a basis accepts exactly the bases that project", "statement": "verify() of a basis returns without an exception if project() is a projection and decompress() agrees with itself at selected locations, in particular for every orthonormal linear basis with or without weights, every fitted POD basis after any changes of its dimension, and every multi-variable basis made of such bases, whatever the random numbers. If it returns, projecting the drawn states twice gives the same as projecting once up to the tolerances of numpy.allclose, also at the drawn locations, and shapes are kept; if projecting twice gives something else, VerificationError is raised. Without a state dimension it raises AttributeError.", "quantifier": "every basis (built-in or user-defined), multi-variable basis and outcome of the random numbers", "why_tests_cant": "verify() draws random states and locations, so that a test sees one outcome; tolerances hide differences of entries below 1e-8, which no test with entries of order one meets", "anchors": ["src/opinf/basis/_base.py:BasisTemplate.verify", "src/opinf/basis/_base.py:BasisTemplate._verify_locs", "src/opinf/basis/_multi.py:BasisMulti.verify", "src/opinf/basis/_multi.py:BasisMulti._verify_locs"]}
{"id": "C91", "title": "projection_error() of a basis is the smallest error any coordinates give", "statement": "projection_error(state) of a basis returns the 2-norm (Frobenius norm) of state - project(state), divided by the norm of the state if relative. It is nonnegative and zero exactly if project() returns the state itself; for an orthonormal basis exactly if the state is decompress() of some coordinates. No other coordinates give a smaller error, so that the relative error is at most 1. For a basis without weights it is what post.projection_error returns; for a POD basis and its training states it is the root of residual_energy; the square of the error of a multi-variable basis is the sum of the squares of the errors of the variables.", "quantifier": "every basis, weights, state vector or array of states, multi-variable basis", "why_tests_cant": "minimality is a statement about all coordinates; tests compare a few values with the same formula", "anchors": ["src/opinf/basis/_base.py:BasisTemplate.projection_error", "src/opinf/basis/_base.py:BasisTemplate.project", "src/opinf/post/_errors.py:projection_error"]}
{"id": "C92", "title": "ddt() estimates the derivative the arguments ask for", "statement": "ddt(states, dt), ddt(states, dt, order), in positional or keyword form, returns the uniform finite differences of the given (default second) order, and ddt(states, t) the second-order differences on the grid t; on a uniform grid with at least three points both are the same. Nothing else is accepted: an integer step given positionally, other keywords, missing or surplus arguments raise TypeError and one-dimensional states DimensionalityError. The estimates do not depend on the data type of the states.", "quantifier": "every call of ddt(), grid, step, order and array of states", "why_tests_cant": "the agreement of the two estimators is a statement about all uniform grids; integer-valued states are stored as floats in the tests, so that the truncation is not seen", "anchors": ["src/opinf/ddt/_finite_difference.py:ddt", "src/opinf/ddt/_finite_difference.py:ddt_uniform", "src/opinf/ddt/_finite_difference.py:ddt_nonuniform"]}
{"id": "C93", "title": "verify() of a lifting map accepts exactly the consistent lifting maps", "statement": "verify(states, t, tol) of a lifting map returns exactly if unlift(lift(states)) is the states up to the tolerances of numpy.allclose and, if lift_ddts() is implemented, t is given and lift_ddts(states, ddt(states)) agrees with ddt(lift(states)) up to the relative tolerance tol. A map that does not recover the states is refused with VerificationError, a missing t with ValueError. The quadratic lifting map is accepted for states that are affine in time and, for any tolerance, for all Lipschitz continuous states with a strictly increasing variable on a sufficiently fine mesh; a wrong lift_ddts() is refused.", "quantifier": "every lifting map (built-in or user-defined), array of states, time domain and tolerance", "why_tests_cant": "the tests verify single sets of states; convergence under mesh refinement is a statement about all meshes, and a wrong lift_ddts is only detected if its error is not small relative to the other variables", "anchors": ["src/opinf/lift/_base.py:LifterTemplate.verify", "src/opinf/lift/_polynomial.py:QuadraticLifter", "src/opinf/lift/_polynomial.py:PolynomialLifter"]}
{"id": "C94", "title": "verify() accepts exactly the consistent operators", "statement": "verify() of an operator returns exactly if the dimensions are positive integers, apply() has the right shapes, jacobian() agrees with difference quotients of apply() at a drawn point, galerkin() agrees with the projection of apply(), and copies and saved and reloaded operators agree with the original. It touches no file except a temporary one, which is gone afterwards. Every operator of the package with entries that fit its dimensions passes, and the classes pass without entries.", "quantifier": "every operator class (built-in or user-defined), drawn numbers, tolerance and state of the file system", "why_tests_cant": "verify() draws random numbers; what it accepts and refuses over all of them, and the class of wrong operators it cannot see, are not observable in runs with fixed correct operators", "anchors": ["src/opinf/operators/_base.py:OperatorTemplate.verify", "src/opinf/operators/_base.py:OpInfOperator.verify", "src/opinf/operators/_base.py:OperatorTemplate.jacobian", "src/opinf/operators/_polynomial_operator.py:PolynomialOperator.operator_dimension"]}
{"id": "C95", "title": "verify() accepts exactly the consistent parametric operators", "statement": "verify(testparam) of a parametric operator returns exactly if the class it evaluates to is nonparametric, the dimensions are positive integers, and evaluate() at the test parameter, of shape (parameter_dimension,), returns an operator of that class with the same state and input dimensions. Affine and interpolatory operators whose arrays fit their dimensions pass at every test parameter at which the coefficient functions or the interpolator can be evaluated, and are not changed. An operator without entries is refused with VerificationError, a test parameter of another shape with ValueError.", "quantifier": "every parametric operator class (built-in or user-defined), operator object and test parameter", "why_tests_cant": "the tests verify operators whose parameter dimension has been set; the dependence on what was called before verify() is not visible in them", "anchors": ["src/opinf/operators/_base.py:ParametricOperatorTemplate.verify", "src/opinf/operators/_affine.py:_AffineOperator.evaluate", "src/opinf/operators/_interpolate.py:_InterpOperator.evaluate"]}
{"id": "C96", "title": "verify() accepts exactly the consistent least-squares solvers", "statement": "verify() of a trained solver returns exactly if solve() gives an array of shape (r, d), copy() gives a solver of the same class with the same dimensions and, up to the tolerances of allclose, the same solution, and, unless a method is not implemented, so does saving the copy and loading it. Every solver of the package is accepted after a successful fit() whenever solve() works, and otherwise verify() raises the exception of solve() (VerificationError for solutions with NaN entries). Verifying an untrained solver does nothing, and no files are changed.", "quantifier": "every solver class (built-in or user-defined), trained or not, all data matrices, options and file systems", "why_tests_cant": "the tests verify a few fitted solvers in an empty directory; files that exist and classes whose methods fail in part are not covered", "anchors": ["src/opinf/lstsq/_base.py:SolverTemplate.verify", "src/opinf/lstsq/_base.py:PlainSolver.copy", "src/opinf/lstsq/_tikhonov.py:L2Solver.copy", "src/opinf/lstsq/_tsvd.py:TruncatedSVDSolver.copy", "src/opinf/lstsq/_total.py:TotalLeastSquaresSolver.copy"]}
{"id": "C97", "title": "verify() of a derivative estimator accepts exactly the estimators with consistent shapes, restores the time domain and reports the errors of the estimates", "statement": "verify() of a time derivative estimator returns exactly if estimate() returns states, derivatives and inputs with as many rows as given and equal numbers of columns, and handles every test problem. Afterwards, the estimator has its original time domain, whether or not verify() returned. The reported numbers are the relative errors of the estimated derivatives; in particular they are zero for test functions on which the estimator is exact. Uniform and nonuniform finite differences pass whenever the time domain has enough entries.", "quantifier": "every estimator class (built-in or user-defined), all 18 schemes, time domains, test functions and time steps", "why_tests_cant": "the reports are printed, not compared with anything; estimators that raise in the middle are not tested", "anchors": ["src/opinf/ddt/_base.py:DerivativeEstimatorTemplate.verify", "src/opinf/ddt/_base.py:DerivativeEstimatorTemplate.verify_shapes", "src/opinf/ddt/_finite_difference.py:UniformFiniteDifferencer", "src/opinf/ddt/_finite_difference.py:NonuniformFiniteDifferencer"]}
{"id": "C98", "title": "The condition numbers reported by the least-squares solvers are the condition numbers of the documented matrices", "statement": "cond() is the 2-norm condition number of the data matrix, i.e. the largest value of |D x| over unit vectors x divided by the smallest; regcond() is the condition number of the data matrix stacked on the regularization matrix (for the decoupled solvers: one number per row); tcond() is the condition number of the truncated data matrix on its row space; augcond is the condition number of [D Z^T] for the data of the last fit(). Before fit(), or without a regularizer where one is needed, each raises AttributeError.", "quantifier": "all data and left-hand side matrices of any shape, regularizers, numbers of modes and sequences of earlier calls", "why_tests_cant": "the tests compare with np.linalg.cond for a few tall random matrices; underdetermined data and refused fits are not tested", "anchors": ["src/opinf/lstsq/_base.py:SolverTemplate.cond", "src/opinf/lstsq/_tikhonov.py:L2Solver.regcond", "src/opinf/lstsq/_tikhonov.py:L2DecoupledSolver.regcond", "src/opinf/lstsq/_tikhonov.py:TikhonovSolver.regcond", "src/opinf/lstsq/_tikhonov.py:TikhonovDecoupledSolver.regcond", "src/opinf/lstsq/_tsvd.py:TruncatedSVDSolver.tcond", "src/opinf/lstsq/_total.py:TotalLeastSquaresSolver.augcond"]}
{"id": "C99", "title": "shift() and scale() center and scale snapshots, invert each other, and agree with the transformer classes", "statement": "opinf.pre.shift(Q) subtracts from each row its mean and returns the mean snapshot; shift(Y, v) subtracts a given vector of the size of a snapshot from every column; shift(Qs, -qbar) recovers Q. opinf.pre.scale(Q, (a, b)) maps the entries so that their minimum becomes a and their maximum b, scale(Q, scaled_to, scaled_from) repeats the same map and scale(Qs, scaled_from, scaled_to) recovers Q. Vectors of another size and wrong numbers of bounds raise ValueError. The results agree with ShiftTransformer and with fit_transform() of ShiftScaleTransformer.", "quantifier": "all snapshot matrices of any shape, shifts and bounds", "why_tests_cant": "the tests use one random matrix of fixed size; shapes that broadcast, decreasing bounds and the agreement with the classes are not tested", "anchors": ["src/opinf/pre/_shiftscale.py:shift", "src/opinf/pre/_shiftscale.py:scale", "src/opinf/pre/_shiftscale.py:ShiftTransformer.transform", "src/opinf/pre/_shiftscale.py:ShiftScaleTransformer.fit_transform"]}
{"id": "C100", "title": "pod_basis() returns the leading singular vectors, and the SVD solver of a POD basis can be exchanged", "statement": "pod_basis(states, ...) returns the first r left singular vectors of the states (orthonormal with respect to the weights and approximating the states best), all computed singular values divided by the largest, and on request the first r right singular vectors; without a criterion r is the smaller dimension of the states. It agrees with PODBasis(...).fit(states). Setting svdsolver to one of the documented names or to a callable makes the next fit() use that solver with the stored options, as if the basis had been constructed with it; other names raise AttributeError and change nothing.", "quantifier": "all states, criteria, weights, solvers, options and sequences of settings", "why_tests_cant": "the tests compare with one SVD of a random matrix; the solver is never changed after construction in the tests", "anchors": ["src/opinf/basis/_pod.py:pod_basis", "src/opinf/basis/_pod.py:PODBasis.svdsolver", "src/opinf/basis/_pod.py:PODBasis.svdsolver_options", "src/opinf/basis/_pod.py:PODBasis.fit"]}
{"id": "C101", "title": "Operators accept exactly the documented entries and keep the last accepted ones", "statement": "set_entries() of an operator accepts an array of numbers exactly if it has one of the documented shapes of its class (for instance (r, r^2), (r, r(r+1)/2) or (r, r, r) for a quadratic operator). Every other shape raises ValueError (a state-input operator with zero rows ZeroDivisionError), a dense array or scalar with a NaN or infinite value raises ValueError, an object that is not an array raises TypeError. Entries given in different documented forms act alike: as the product of the given matrix or tensor with the full Kronecker products of the state. After any sequence of assignments to and deletions of the attribute the entries are those of the last accepted assignment, or None after a deletion; refused assignments leave no trace.", "quantifier": "all operator classes, state and input dimensions, arrays of any number of dimensions, scalars, lists and sparse matrices, and all sequences of assignments and deletions", "why_tests_cant": "the tests try a handful of shapes per class at one state dimension; tensors, sparse matrices and failed assignments to an operator with entries are hardly tested", "anchors": ["src/opinf/operators/_nonparametric.py:ConstantOperator.set_entries", "src/opinf/operators/_nonparametric.py:LinearOperator.set_entries", "src/opinf/operators/_nonparametric.py:QuadraticOperator.set_entries", "src/opinf/operators/_nonparametric.py:CubicOperator.set_entries", "src/opinf/operators/_nonparametric.py:QuarticOperator.set_entries", "src/opinf/operators/_nonparametric.py:InputOperator.set_entries", "src/opinf/operators/_nonparametric.py:StateInputOperator.set_entries", "src/opinf/operators/_base.py:OpInfOperator._validate_entries", "src/opinf/operators/_base.py:OpInfOperator.entries"]}
{"id": "C102", "title": "Objects that compare equal act alike", "statement": "The comparison == of transformers, multi-transformers, linear and multi-bases and interpolated operators is reflexive, symmetric and transitive, and objects that compare equal act alike: equal transformers transform, differentiate and invert alike, equal bases compress and decompress alike, equal interpolated operators evaluate to the same operator at every parameter.", "quantifier": "all transformers, bases and interpolated operators, and all their arguments", "why_tests_cant": "the tests compare an object with a few copies of it, from one side only", "anchors": ["src/opinf/pre/_shiftscale.py:ShiftScaleTransformer.__eq__", "src/opinf/pre/_multi.py:TransformerMulti.__eq__", "src/opinf/basis/_linear.py:LinearBasis.__eq__", "src/opinf/basis/_multi.py:BasisMulti.__eq__", "src/opinf/operators/_interpolate.py:_InterpOperator.__eq__"]}
{"id": "C103", "title": "A model evaluated at a parameter is independent of the parametric model", "statement": "evaluate(parameter) returns a model that keeps its operators: no later calls on the parametric model (fit, refit, evaluate, changing the solver, in any order, successful or refused) change the evaluated model; copies of an evaluated model are independent too, and an evaluated model itself cannot be trained: its fit() raises, its solver cannot be set and neither changes anything.", "quantifier": "all parametric models with constant, affine and interpolated operators, all parameters, all solvers, all sequences of later calls", "why_tests_cant": "the tests evaluate a model and use the result at once; none trains the parametric model again afterwards", "anchors": ["src/opinf/models/mono/mono/_parametric.py:_ParametricModel.evaluate", "src/opinf/models/mono/mono/_parametric.py:_ParametricModel.fit", "src/opinf/models/mono/mono/_parametric.py:_ParametricModel.refit", "src/opinf/models/mono/mono/_nonparametric.py:_FrozenMixin", "src/opinf/models/mono/mono/_base.py:_Model.copy"]}
{"id": "C104", "title": "compress_entries() and expand_entries() find the state dimension from the number of columns", "statement": "compress_entries(H) recognises r**p columns for every r and refuses every other number of columns with ValueError. expand_entries(Hc) finds r from operator_dimension(r) columns - for every r for quadratic operators, and by at most ten steps of Newton's method for every r up to 10**51 for cubic and up to 10**10 for quartic operators - and refuses every number of columns that belongs to no r with ValueError; it never goes on with a wrong dimension. One-dimensional arguments count as one row. Expanding and compressing again gives the same entries.", "quantifier": "all numbers of columns, all state dimensions in the stated ranges (arrays beyond them do not fit into memory)", "why_tests_cant": "the tests expand matrices for a few dimensions below 20; that Newton's method from the rounded-down root ends in ten steps at the right integer is not tested", "anchors": ["src/opinf/operators/_nonparametric.py:CubicOperator._rfromcompressed", "src/opinf/operators/_nonparametric.py:QuarticOperator._rfromcompressed", "src/opinf/operators/_nonparametric.py:QuadraticOperator.expand_entries", "src/opinf/operators/_nonparametric.py:CubicOperator.expand_entries", "src/opinf/operators/_nonparametric.py:QuarticOperator.expand_entries", "src/opinf/operators/_nonparametric.py:QuadraticOperator.compress_entries", "src/opinf/operators/_nonparametric.py:CubicOperator.compress_entries", "src/opinf/operators/_nonparametric.py:QuarticOperator.compress_entries"]}
{"id": "C105", "title": "The inplace flag of transformers decides only where the result is written", "statement": "transform(), transform_ddts(), inverse_transform() and fit_transform() of the built-in transformers, of pipelines and of transformers for several variables, nested in any way: with inplace=False the argument is never changed, also if the call raises; inplace=True and inplace=False return the same values, raise the same exception and learn the same transformation; a call with inplace=True that returns leaves the returned values in the argument. A single transformer that raises leaves its argument as it is even with inplace=True; a pipeline or a transformer for several variables then leaves what its finished members wrote. So encode() of a reduced-order model without inplace and decode() never change their arguments.", "quantifier": "all nestings, states (trained or not) and arguments of any shape", "why_tests_cant": "the tests check np.shares_memory or array identity for single successful calls with fixed shapes; nested transformers and arguments after an exception are not compared", "anchors": ["src/opinf/pre/_shiftscale.py:ShiftTransformer.transform", "src/opinf/pre/_shiftscale.py:ScaleTransformer.transform", "src/opinf/pre/_shiftscale.py:ShiftScaleTransformer.fit_transform", "src/opinf/pre/_shiftscale.py:ShiftScaleTransformer.inverse_transform", "src/opinf/pre/_multi.py:TransformerPipeline.transform", "src/opinf/pre/_multi.py:TransformerPipeline.inverse_transform", "src/opinf/pre/_multi.py:NullTransformer.transform", "src/opinf/pre/_multi.py:TransformerMulti.transform", "src/opinf/pre/_multi.py:TransformerMulti.transform_ddts", "src/opinf/pre/_multi.py:TransformerMulti.fit_transform", "src/opinf/pre/_multi.py:TransformerMulti.inverse_transform", "src/opinf/roms/_base.py:_BaseROM.encode"]}
{"id": "C106", "title": "The operator accessors of a model and its right-hand side agree, whatever the order of the operators", "statement": "model.c_, A_, H_, G_, B_ and N_ return the first operator of their class in the list of operators and None if and only if there is none, also for parametric models. A model constructed from abbreviations has exactly one operator per letter, and the accessors return it before and, with entries, after fit(). If all operators have different classes with accessors, rhs(q, u) is c_ + A_ q + H_[q x q] + G_[q x q x q] + B_ u + N_[u x q] with zero for the missing ones. The order of the operators does not matter for rhs() and for discrete predict(). (A known and an inferred operator of the same class may be in one model; then the accessor finds only the first.)", "quantifier": "all lists of operators, states and inputs, all letters and orders, all training data", "why_tests_cant": "the tests look at single accessors of fixed models; sums of the accessors' terms, other orders and two operators of one class are not compared", "anchors": ["src/opinf/models/mono/_base.py:_Model.c_", "src/opinf/models/mono/_base.py:_Model.A_", "src/opinf/models/mono/_base.py:_Model.H_", "src/opinf/models/mono/_base.py:_Model.G_", "src/opinf/models/mono/_base.py:_Model.B_", "src/opinf/models/mono/_base.py:_Model.N_", "src/opinf/models/mono/_nonparametric.py:_NonparametricModel._get_operator_of_type", "src/opinf/models/mono/_parametric.py:_ParametricModel._get_operator_of_type", "src/opinf/models/mono/_nonparametric.py:_NonparametricModel.rhs"]}
{"id": "C107", "title": "The sum of two operators acts as the sum of the operators", "statement": "For two operators of the same class with entries for the same state and input dimensions, a + b is an operator of this class whose apply() returns the sum of the two values, for a single state and for any number of snapshots, and whose jacobian() is the sum of the two Jacobians. a + b and b + a are the same (also when an exception is raised), (a + b) + c and a + (b + c) are the same, and replacing two operators of a model by their sum does not change rhs(). Operators of different classes and operators without entries are refused with TypeError. Operators without inputs for r and s state variables can be added if and only if r = s or one of them is 1 (then the coefficient is added to all entries of the other operator); everything else is refused with ValueError.", "quantifier": "all classes, dimensions, entries, states, inputs and numbers of snapshots", "why_tests_cant": "the tests add two operators of each class with random entries and compare the entries; values, Jacobians, models and different dimensions are not compared", "anchors": ["src/opinf/operators/_base.py:OpInfOperator.__add__", "src/opinf/operators/_nonparametric.py:LinearOperator.set_entries", "src/opinf/operators/_nonparametric.py:LinearOperator.jacobian", "src/opinf/models/mono/_nonparametric.py:_NonparametricModel.rhs"]}
{"id": "C108", "title": "The result of training depends neither on the order of the snapshots nor on the order of the operators", "statement": "If two models with the same operators in any order (known operators with the same entries) are trained with the same snapshots, left-hand sides and inputs in any order, then both trained models return the same right-hand side at all training snapshots. If the regularizer is not zero, or the data determine the operators, then both have the same operators up to the order, and rhs() agrees for all states and inputs. This holds for PlainSolver and for L2Solver with a common scalar regularizer, for different least-squares or SVD routines, and between PlainSolver and L2Solver with regularizer zero. For TikhonovSolver, whose matrix belongs to an order of the operators, it holds for the order of the snapshots, with a regularization matrix of trivial kernel in place of a nonzero regularizer.", "quantifier": "all operators, dimensions, snapshots, inputs, regularizers, permutations and least-squares or SVD routines that meet their specification", "why_tests_cant": "the tests train with one order of snapshots and operators and check shapes; independence of an arbitrary permutation, also for rank-deficient data, is not an input-output check", "anchors": ["src/opinf/models/mono/_base.py:_OpInfModel", "src/opinf/models/mono/_nonparametric.py:_NonparametricModel.fit", "src/opinf/models/mono/_nonparametric.py:_NonparametricModel.rhs", "src/opinf/lstsq/_tikhonov.py:L2Solver.solve", "src/opinf/lstsq/_tikhonov.py:TikhonovSolver.solve", "src/opinf/lstsq/_base.py:PlainSolver.solve"]}
{"id": "C109", "title": "Sparse arrays survive HDF5 files", "statement": "save_sparray() followed by load_sparray() returns a sparse array of the same format with the same shape and entries, which acts as the saved one; except for the coordinate format every position is stored once. Dense arrays are refused with TypeError. The terms of an affine operator, dense or sparse in any mixture, come back from its file in order with the same entries, so that the operator evaluates to the same entries at every parameter.", "quantifier": "all formats, shapes, stored entries (repeated positions included), mixtures of dense and sparse terms and coefficients", "why_tests_cant": "the tests save a few random sparse arrays and compare them after conversion to dense arrays; the class of the result and repeated positions are not checked", "anchors": ["src/opinf/utils/_hdf5.py:save_sparray", "src/opinf/utils/_hdf5.py:load_sparray", "src/opinf/operators/_affine.py:_AffineOperator.save", "src/opinf/operators/_affine.py:_AffineOperator.load"]}
{"id": "C110", "title": "The order of the trajectories does not matter for training a reduced-order model", "statement": "If fit() of a reduced-order model is called with a list of trajectories, and for an equal one with the same trajectories (with their left-hand sides and inputs) in another order, and both calls return, then the processed training data are those of each trajectory alone, in the respective order. If transformer and basis are not refitted, or refitting them gives the same, then both reduced-order models have the same parts, their models return the same right-hand side at all training samples, and if the regularizer is not zero or the data determine the operators, the learned operators and rhs() everywhere are the same. This holds with given left-hand sides, with estimated time derivatives, and for shifted trajectories of discrete models, with and without inputs, for PlainSolver, L2Solver and TikhonovSolver.", "quantifier": "all lifters, transformers, bases, estimators, models, trajectories of different lengths, inputs, regularizers, permutations and least-squares or SVD routines that meet their specification", "why_tests_cant": "the tests train reduced-order models with one order of the trajectories; that time derivatives are never estimated across trajectories, and that the result is the same for every permutation, is not an input-output check", "anchors": ["src/opinf/roms/_nonparametric.py:ROM.fit", "src/opinf/roms/_base.py:_BaseROM._process_training_data", "src/opinf/roms/_base.py:_BaseROM._fix_single_trajectory", "src/opinf/models/mono/_nonparametric.py:_NonparametricModel.fit"]}
{"id": "C111", "title": "The order of the training parameters does not matter for training a parametric model", "statement": "If fit() of a parametric model with affine and nonparametric operators is called with training parameters and their data, and for an equal model with the same parameters and data in another order, and both calls return, then the two models return the same right-hand side at every training sample, and if the regularizer is not zero or the data determine the operators, the learned operators are the same and so are rhs() and jacobian() at every parameter. This holds for PlainSolver, L2Solver and TikhonovSolver, with and without inputs, and with operators known in advance. For models of interpolated operators without known operators, rhs(), jacobian() and predict() are the same at every parameter, whatever the solver, if the interpolators are the default ones for distinct scalar parameters, or of a class for which the order of its data does not matter.", "quantifier": "all parametric models, training sets of different lengths, inputs, regularizers, permutations and least-squares or SVD routines that meet their specification", "why_tests_cant": "the tests train parametric models with one order of the parameters; that the result is the same for every permutation is not an input-output check", "anchors": ["src/opinf/models/mono/_parametric.py:_ParametricModel.fit", "src/opinf/models/mono/_parametric.py:_InterpModel.refit", "src/opinf/models/mono/_parametric.py:_ParametricModel._assemble_data_matrix", "src/opinf/models/mono/_parametric.py:_ParametricModel._process_fit_arguments"]}
{"id": "C112", "title": "Time derivatives may be estimated before or after transforming and compressing the states", "statement": "For a time-continuous ROM without lifter whose transformer and basis are already fitted, fit(states) (where the ROM estimates the derivatives of the reduced states) has the same outcome as first calling ddt_estimator.estimate() on the original states and then fit() with the returned states and derivatives as lhs (and the returned inputs): the same training data reach the model. One way succeeds if and only if the other does. This holds for all schemes of UniformFiniteDifferencer and for NonuniformFiniteDifferencer, for shifts, scalings, fitted shift-scale transformers, pipelines, multi-variable transformers, linear and POD bases with any weights, and multi-variable bases.", "quantifier": "all finite difference schemes, step sizes or increasing times, numbers and lengths of trajectories, inputs, states with n > 0 entries, transformers and bases of these kinds, solvers and models", "why_tests_cant": "the tests estimate derivatives only inside fit(); that differencing commutes with every combination of preprocessing and compression is an identity over all data, schemes and parts", "anchors": ["src/opinf/roms/_base.py:_BaseROM._process_training_data", "src/opinf/ddt/_finite_difference.py:UniformFiniteDifferencer.estimate", "src/opinf/ddt/_finite_difference.py:NonuniformFiniteDifferencer.estimate", "src/opinf/pre/_multi.py:TransformerPipeline.transform_ddts", "src/opinf/pre/_multi.py:TransformerMulti.transform_ddts", "src/opinf/basis/_linear.py:LinearBasis.compress", "src/opinf/basis/_multi.py:BasisMulti.compress"]}
{"id": "C113", "title": "The right-hand side determines the operators", "statement": "Two models with operators of pairwise distinct classes whose rhs() agrees at all states and inputs have the same operators with the same entries, except that one of them may have additional operators all of whose entries are zero; so models with the same operator classes and dimensions are equal (==) if and only if their right-hand sides agree everywhere, and likewise two operators of the same class are equal if and only if apply() agrees everywhere (for PolynomialOperator of any order: the entries are then the same). There are always d = sum of operator_dimension(r, m) states and inputs at which training recovers every model with these operators from its right-hand sides there, while fewer than d snapshots never determine the operators.", "quantifier": "all models with constant, linear, quadratic, cubic, quartic, input and state-input operators of distinct classes, all state and input dimensions, all entries, polynomial operators of all orders", "why_tests_cant": "a statement about all states and inputs: the entries are compressed, so it depends on the monomials of all operators being distinct; tests only compare entries or a few evaluations", "anchors": ["src/opinf/models/mono/_base.py:_Model.__eq__", "src/opinf/models/mono/_nonparametric.py:_NonparametricModel.rhs", "src/opinf/models/mono/_nonparametric.py:_NonparametricModel._assemble_data_matrix", "src/opinf/operators/_base.py:OpInfOperator.__eq__", "src/opinf/operators/_nonparametric.py:QuadraticOperator.apply", "src/opinf/operators/_nonparametric.py:CubicOperator.apply", "src/opinf/operators/_nonparametric.py:QuarticOperator.apply", "src/opinf/operators/_nonparametric.py:StateInputOperator.apply", "src/opinf/operators/_polynomial_operator.py:PolynomialOperator.apply"]}
{"id": "C114", "title": "Galerkin projections compose", "statement": "op.galerkin(Vr, Wr) is the only operator F of its class with (Wr^T Vr) F(q, u) = Wr^T op(Vr q, u) for all reduced states and inputs. Hence op.galerkin(Vr1, Wr1).galerkin(Vr2, Wr2) has the same entries as op.galerkin(Vr1 @ Vr2, Wr1 @ X) where (Wr1^T Vr1)^T X = Wr2 (X = Wr2 if Wr1^T Vr1 = I), and the same holds for models. For biorthogonal bases the projection onto the leading columns is obtained from the larger reduced operator by keeping its leading coordinates. Projecting with identity matrices changes nothing; projecting with a square invertible basis is a change of coordinates, independent of the test basis, and projecting with its inverse afterwards returns the original entries. The projection of a sum of operators is the sum of the projections.", "quantifier": "all operators of the listed classes, all state and input dimensions, all trial and test bases with nonsingular Wr^T Vr, all models with entries set", "why_tests_cant": "identities between compressed entry arrays for all bases and dimensions; the tests check a single projection at random states", "anchors": ["src/opinf/operators/_base.py:OpInfOperator._galerkin", "src/opinf/operators/_nonparametric.py:ConstantOperator.galerkin", "src/opinf/operators/_nonparametric.py:LinearOperator.galerkin", "src/opinf/operators/_nonparametric.py:QuadraticOperator.galerkin", "src/opinf/operators/_nonparametric.py:CubicOperator.galerkin", "src/opinf/operators/_nonparametric.py:QuarticOperator.galerkin", "src/opinf/operators/_nonparametric.py:StateInputOperator.galerkin", "src/opinf/models/mono/_base.py:_Model.galerkin"]}
{"id": "C115", "title": "Transformers accept exactly the arguments that fit, and locs means what Python means", "statement": "inverse_transform(states, locs=...) takes integer positions (negative ones count from the end) or a slice start:stop:step; the rows selected are exactly those Python selects, in Python's order, and their original values come back. If the number of selected rows differs from the number of rows of the argument (or the step is zero) every transformer raises ValueError; if a position does not exist and a parameter has to be looked up for it, IndexError is raised. A ShiftScaleTransformer lacking a parameter that its options ask for raises AttributeError in transform, transform_ddts and inverse_transform; having them, transform returns exactly for the arrays whose number of rows is the state dimension and to which every parameter applies, and raises ValueError otherwise (also after the state dimension was changed). The constructor refuses exactly the norm scalings by row.", "quantifier": "all start, stop, step values and position lists, all numbers of rows, all parameter values, all options of the four transformer classes", "why_tests_cant": "the tests try one slice and one index array of matching length; slices with negative steps or clipped bounds, and the choice among the exceptions, are not enumerable", "anchors": ["src/opinf/pre/_base.py:TransformerTemplate._check_locs", "src/opinf/pre/_base.py:TransformerTemplate._check_shape", "src/opinf/pre/_shiftscale.py:ShiftTransformer.inverse_transform", "src/opinf/pre/_shiftscale.py:ScaleTransformer.inverse_transform", "src/opinf/pre/_shiftscale.py:ShiftScaleTransformer.__init__", "src/opinf/pre/_shiftscale.py:ShiftScaleTransformer._is_trained", "src/opinf/pre/_shiftscale.py:ShiftScaleTransformer.transform", "src/opinf/pre/_shiftscale.py:ShiftScaleTransformer.inverse_transform", "src/opinf/pre/_multi.py:NullTransformer.inverse_transform"]}
{"id": "C116", "title": "The residuals of training are orthogonal to everything the model could have learned", "statement": "After fit(), let e_j be the difference between the j-th left-hand side and the right-hand side of the trained model at the j-th snapshot and input, d_j the data vector of that sample and O the operator matrix. For every matrix H of the shape of O, the sum of <e_j, H d_j> is 0 for PlainSolver, lambda^2 <O, H> for L2Solver, and the sum of <G o_i, G h_i> over the rows for TikhonovSolver. Hence without regularization every residual component is orthogonal to every data entry, the residuals sum to zero if a constant operator is learned, the energy of the left-hand side (minus known operators) splits into residual energy, learned energy and twice the penalty, so that the residual is never larger than that of a model learning nothing; and a matrix whose residuals satisfy these equations has the outputs of the trained model at the samples, and equals O if the penalty is definite or the data determine the operators. An interpolatory model with learned operators has these properties at every training parameter, with the data of that parameter.", "quantifier": "all models with any operators to learn and known operators, all training data and inputs, all regularizers, all ordered fields, every least-squares routine returning minimizers", "why_tests_cant": "the tests compare the solution with another numerical solver on random data; orthogonality against all matrices and uniqueness are not enumerable", "anchors": ["src/opinf/models/mono/_nonparametric.py:_NonparametricModel.fit", "src/opinf/models/mono/_nonparametric.py:_NonparametricModel._assemble_data_matrix", "src/opinf/lstsq/_base.py:PlainSolver.solve", "src/opinf/lstsq/_tikhonov.py:L2Solver.solve", "src/opinf/lstsq/_tikhonov.py:TikhonovSolver.solve"]}
{"id": "C117", "title": "Training is linear in the left-hand side", "statement": "Train the same model three times on the same states and inputs, the third time with the left-hand side c*lhs1 + d*lhs2. If all operators are learned, or c + d = 1, then the right-hand side of the third model at every training sample is c times that of the first plus d times that of the second; if the regularizer is definite or the data determine the operators, the operator matrices and the right-hand sides at all states and inputs combine in the same way. In particular, a change of the unit of time (all left-hand sides multiplied by c) multiplies all learned operators by c. Holds for PlainSolver, L2Solver and TikhonovSolver.", "quantifier": "all models, data, inputs, coefficients, regularizers, ordered fields, and all least-squares routines returning minimizers", "why_tests_cant": "the tests never train the same model on related data", "anchors": ["src/opinf/models/mono/_nonparametric.py:_NonparametricModel.fit", "src/opinf/models/mono/_nonparametric.py:_NonparametricModel._process_fit_arguments", "src/opinf/lstsq/_base.py:PlainSolver.solve", "src/opinf/lstsq/_tikhonov.py:L2Solver.solve", "src/opinf/lstsq/_tikhonov.py:TikhonovSolver.solve"]}
{"id": "C118", "title": "Pipelines and multi-variable transformers are consistent by construction", "statement": "TransformerPipeline(list) accepts exactly the transformers no two of which have different state dimensions and raises ValueError otherwise; its state_dimension is that of any member that has one. TransformerMulti(list, variable_sizes) accepts exactly a positive number of transformers with as many sizes, each equal to the state dimension of its transformer if that has one; afterwards every member has its size, the total dimension is the sum, and members that had a dimension are unchanged; all else raises ValueError. Once all sizes are known, calibration with another number of rows raises DimensionalityError and changes nothing; while a size is unknown, the number of rows must be a multiple of the number of variables and all variables get the same size. inverse_transform with locs raises ValueError for variables of different sizes or an uneven number of rows.", "quantifier": "all lists of transformers (built-in or user-defined), sizes, data and locations", "why_tests_cant": "combinations of members with and without dimensions are not enumerable; the tests use two or three members", "anchors": ["src/opinf/pre/_multi.py:TransformerPipeline.__init__", "src/opinf/pre/_multi.py:TransformerPipeline.state_dimension", "src/opinf/pre/_multi.py:TransformerMulti.__init__", "src/opinf/pre/_multi.py:TransformerMulti.state_dimension", "src/opinf/pre/_multi.py:TransformerMulti.fit_transform", "src/opinf/pre/_multi.py:TransformerMulti.inverse_transform"]}
{"id": "C119", "title": "Without regularization, training does not depend on the coordinates of the states", "statement": "Train a model with PlainSolver, and train it again with all states and left-hand sides multiplied by an invertible matrix T (same inputs, same operator classes, known operators expressed in the new coordinates). At every training sample (q, u) the second model satisfies rhs(T q, u) = T rhs(q, u) of the first. If the data determine the operators this holds for all states and inputs; discrete-time predictions from T q0 are then T times the predictions from q0, and projecting the second model with galerkin(T, inverse transpose of T) gives back the operators of the first.", "quantifier": "all combinations of monolithic operators of any order with and without inputs, known operators, data, least-squares routines, dimensions and invertible matrices", "why_tests_cant": "needs that every data block transforms linearly under a change of coordinates (compressed Kronecker products of any order) and that minimisers correspond; finite tests see single changes of units", "anchors": ["src/opinf/models/mono/_nonparametric.py:_NonparametricModel.fit", "src/opinf/models/mono/_nonparametric.py:_NonparametricModel._assemble_data_matrix", "src/opinf/models/mono/_nonparametric.py:_NonparametricModel.rhs", "src/opinf/models/mono/_nonparametric.py:DiscreteModel.predict", "src/opinf/models/mono/_base.py:_Model.galerkin", "src/opinf/lstsq/_base.py:PlainSolver.solve"]}
{"id": "C120", "title": "A parametric model can be trained again", "statement": "Calling fit on a parametric model forgets all earlier calls of fit, whether they succeeded or raised an error: the call raises the same error as on the same model that has never been trained, or it succeeds and leads to the same operators, the same dimensions and the same evaluations at every parameter.", "quantifier": "all parametric models (standard, affine and interpolated operators, known or to infer), all finite sequences of earlier calls, all arguments, all solvers whose result depends only on their settings and the data", "why_tests_cant": "a property of sequences of calls of any length including failing ones; tests fit once or twice with valid data", "anchors": ["src/opinf/models/mono/_parametric.py:_ParametricModel.fit", "src/opinf/models/mono/_parametric.py:_ParametricModel._process_fit_arguments", "src/opinf/models/mono/_parametric.py:_ParametricModel._synchronize_parameter_dimensions", "src/opinf/models/mono/_base.py:_Model._clear", "src/opinf/operators/_interpolate.py:_InterpOperator._clear", "src/opinf/operators/_interpolate.py:_InterpOperator.set_interpolator", "src/opinf/operators/_affine.py:_AffineOperator._clear"]}
{"id": "C121", "title": "Galerkin projection of a parametric model commutes with evaluation at a parameter", "statement": "Projecting a parametric model onto a pair of bases and evaluating the reduced model at a parameter value gives the same model as evaluating at the parameter value first and projecting the resulting nonparametric model. Hence at every parameter value the right-hand side of the reduced model is the (oblique) projection of the right-hand side of the full model.", "quantifier": "all parametric models (standard, affine and interpolated operators with entries, any number and classes), all dimensions, all trial and test bases whose product is the identity or for which the linear solves are exact, all parameter values at which the model can be evaluated, interpolation methods that are linear in the interpolated values", "why_tests_cant": "tests project single operators and check shapes; the identity relates two different orders of operations for all parameter values and operator combinations", "anchors": ["src/opinf/models/mono/_base.py:_Model.galerkin", "src/opinf/models/mono/_parametric.py:_ParametricModel.evaluate", "src/opinf/operators/_affine.py:_AffineOperator.galerkin", "src/opinf/operators/_interpolate.py:_InterpOperator.galerkin", "src/opinf/operators/_affine.py:_AffineOperator.evaluate", "src/opinf/operators/_interpolate.py:_InterpOperator.evaluate"]}
{"id": "C122", "title": "A POD basis made from a singular value decomposition keeps the decomposition", "statement": "PODBasis.from_svd(leftvecs, svdvals, rightvecs) keeps each singular value together with its left and right vectors: the stored triplets, multiplied with the largest singular value, give the matrix whose decomposition was passed, and a basis selected by an energy criterion captures the energy it reports.", "quantifier": "all matrices of left and right vectors, all lists of singular values with a largest value different from zero in any order, all selection criteria and weights", "why_tests_cant": "tests pass the output of scipy.linalg.svd, which is sorted; the order of the singular values is an assumption nobody tests or documents", "anchors": ["src/opinf/basis/_pod.py:PODBasis.from_svd", "src/opinf/basis/_pod.py:PODBasis._store_svd", "src/opinf/basis/_pod.py:PODBasis._set_dimension_from_criterion"]}
{"id": "C123", "title": "Timed blocks write each message to each log file once and to the screen only if asked", "statement": "After TimedBlock.add_logfile(path), every timed block that ends appends its messages to that file exactly once, in the order in which the blocks end, however blocks are nested, whatever exceptions are raised or caught, and however often files are added; other files are not touched. TimedBlock.verbose = False turns off what the blocks print but not what they log, and TimedBlock.rebuffer does not change what finally is on the screen.", "quantifier": "all programs composed of prints, nested timed blocks with or without time limits, exceptions and handlers, calls of add_logfile and changes of the class attributes verbose and rebuffer, in all states of the logger reached by such programs", "why_tests_cant": "tests run one or two blocks with one log file; interleavings of nesting, exceptions, several files and changes of the class attributes are unbounded", "anchors": ["src/opinf/utils/_timer.py:TimedBlock.add_logfile", "src/opinf/utils/_timer.py:TimedBlock.__enter__", "src/opinf/utils/_timer.py:TimedBlock.__exit__"]}
{"id": "C124", "title": "The variables of multi-variable bases and transformers and the steps of a pipeline are independent", "statement": "In BasisMulti(bases, sizes) each variable has its own basis: fit() trains the basis of each variable with the data of that variable, multi[name] and get_var(name, states) with the name of a variable, given or by default variable i, refer to that variable, and constructing or training other multi-variable bases changes nothing. Likewise each variable of a TransformerMulti and each step of a TransformerPipeline keeps the transformation it was trained with.", "quantifier": "all lists of basis or transformer objects, including lists in which an object occurs several times and objects that have been used elsewhere before, all sequences of constructor calls and trainings, all data", "why_tests_cant": "tests make new component objects for every multi-variable object; sharing of objects between variables, steps and owners is a matter of all interleavings of calls", "anchors": ["src/opinf/basis/_multi.py:BasisMulti.__init__", "src/opinf/basis/_multi.py:BasisMulti.fit", "src/opinf/basis/_multi.py:BasisMulti.__getitem__", "src/opinf/basis/_multi.py:BasisMulti.get_var", "src/opinf/pre/_multi.py:TransformerPipeline.fit_transform", "src/opinf/pre/_multi.py:TransformerMulti.__init__", "src/opinf/pre/_multi.py:TransformerMulti.fit_transform"]}
{"id": "C125", "title": "A Bayesian reduced-order model selects a posterior that was tried out and that fit() reproduces", "statement": "BayesianROM(model) accepts exactly the models that are not interpolatory and whose solver is an L2, L2-decoupled, Tikhonov or Tikhonov-decoupled solver and raises AttributeError otherwise; before training, draw_operators() and predict() raise AttributeError. fit() trains like ROM.fit() and makes the posterior of the trained solver. If fit_regselect_discrete() or fit_regselect_continuous() completes, there is a posterior, the requested number of successive draws from it was stable in every test case and for every training trajectory, and fit() with the same raw data, with the selected regularization set on the reset solver, gives the same posterior, solver, transformer and basis whenever it succeeds.", "quantifier": "all training data (one or several trajectories, with or without inputs and time derivatives), transformers, bases, lifting maps, candidates, numbers of draws, test cases, random number generators and optimisers; all solvers for which assigning a regularization before and after fit() commutes", "why_tests_cant": "the selection is a search over draws; agreement with a fresh training run depends on preprocessing, solver state and the order of assignments for all data", "anchors": ["src/opinf/roms/_bayes.py:_BayesianROMMixin._validate_model_solver", "src/opinf/roms/_bayes.py:_BayesianROMMixin.fit_regselect_continuous", "src/opinf/roms/_bayes.py:_BayesianROMMixin.fit_regselect_discrete", "src/opinf/roms/_bayes.py:BayesianROM.fit", "src/opinf/roms/_bayes.py:BayesianROM.predict"]}
{"id": "C126", "title": "Without regularization, complete polynomial models do not depend on the reference state", "statement": "Train a model with PlainSolver, and train it again with a vector c added to all states and a vector d added to all left-hand sides (same inputs, same operator classes, known operators expressed with the new reference state). Assume that with every operator class to be learned those of lower degree are learned too (quartic, cubic, quadratic, linear, constant; with state-input products also inputs), and a constant operator if d is not zero. At every training sample (q, u) the second model satisfies rhs(q + c, u) = rhs(q, u) + d, hence both have the same residuals. If the data determine the operators this holds for all states and inputs, and for d = c the discrete-time predictions from q0 + c are the predictions from q0 plus c. So centering the snapshots changes nothing but the operators.", "quantifier": "all complete combinations of monolithic operators with and without inputs, known operators, data, least-squares routines, dimensions and translations", "why_tests_cant": "needs the binomial expansion of compressed Kronecker products of any order as linear maps of the data and the correspondence of minimisers; tests see single snapshots and shifts", "anchors": ["src/opinf/models/mono/_nonparametric.py:_NonparametricModel.fit", "src/opinf/models/mono/_nonparametric.py:_NonparametricModel._assemble_data_matrix", "src/opinf/models/mono/_nonparametric.py:_NonparametricModel.rhs", "src/opinf/models/mono/_nonparametric.py:DiscreteModel.predict", "src/opinf/lstsq/_base.py:PlainSolver.solve"]}
{"id": "C127", "title": "A parametric model with nothing known accepts exactly the training data of consistent shapes", "statement": "Take a ParametricModel or an interpolatory model all of whose operators are to be learned, trained before or not. fit(parameters, states, lhs, inputs) gets past the validation of its arguments if and only if there is at least one parameter value, all values have the same shape (a positive number of entries if there are parametric operators), there are as many arrays of states and of left-hand sides as values, all of the same height, with the same number of columns pairwise, and, if the model has inputs, as many arrays of inputs of one height with the same numbers of columns. Then state_dimension, input_dimension and parameter_dimension are the ones of the data; the dimensions of earlier trainings do not matter. Otherwise fit raises an error and no operator has entries afterwards. After a fit that returns normally the model reports the dimensions of the data.", "quantifier": "all parametric and interpolatory models without known operators, all histories of training, numbers and shapes of parameters, states, left-hand sides and inputs", "why_tests_cant": "an equivalence over all combinations of shapes and all earlier states of the model; tests try some wrong shapes on new models", "anchors": ["src/opinf/models/mono/_parametric.py:_ParametricModel._process_fit_arguments", "src/opinf/models/mono/_parametric.py:_ParametricModel.fit", "src/opinf/models/mono/_parametric.py:_ParametricModel._synchronize_parameter_dimensions", "src/opinf/models/mono/_base.py:_Model._clear", "src/opinf/models/mono/_parametric.py:_InterpModel._fit_solver"]}
{"id": "C128", "title": "Complete models trained without regularization do not depend on affine coordinates", "statement": "Train a model without regularization, and train one with operators of the same classes with T q + c instead of every state q and T z + d instead of every left-hand side z, where T is an invertible matrix. If c and d are zero, or if with each learned class of operators those of lower degree are learned too and the constant one unless d is zero, then the right-hand side of the second model at T q + c is T y + d, where y is the right-hand side of the first model at q: at all training samples, and for all states and inputs if the data determine the operators. In the discrete case, with c = d, the predictions of the second model from T q0 + c are the images of those of the first one from q0.", "quantifier": "all dimensions, invertible matrices, shifts, training data with or without inputs, known operators expressed in the respective coordinates, all states, inputs and numbers of steps", "why_tests_cant": "an identity between two trainings over all affine changes of coordinates; tests compare a few numbers in one coordinate system", "anchors": ["src/opinf/models/mono/_nonparametric.py:_NonparametricModel.fit", "src/opinf/models/mono/_nonparametric.py:_NonparametricModel._assemble_data_matrix", "src/opinf/models/mono/_nonparametric.py:DiscreteModel.predict", "src/opinf/lstsq/_base.py:PlainSolver.solve"]}
{"id": "C129", "title": "Predictions of reduced-order models do not depend on the reduced coordinates", "statement": "Train two reduced-order models with fully discrete models of the same structure, all operators to be learned, without regularization, with the same trajectories. Assume that their encodings of the training states and of the initial state differ by y -> A y + c with an invertible matrix A, that the second decodes A y + c to what the first makes of y, that the operators can take up the shift c as in C128, and that the data determine the operators. Then predict(state0, niters, inputs) of the second returns whatever it returns for the first. In particular this holds for two LinearBasis objects whose vectors differ by an orthogonal matrix, for example by the signs or the order of singular vectors, with any lifter, transformer and weights, and whatever operators are learned.", "quantifier": "all reduced-order models with transformers and bases of any classes, numbers and lengths of trajectories, with or without inputs, all initial states and numbers of steps", "why_tests_cant": "relates two complete pipelines (encode, train, predict, decode) for all data; tests run one pipeline with one basis", "anchors": ["src/opinf/roms/_nonparametric.py:ROM.fit", "src/opinf/roms/_nonparametric.py:ROM.predict", "src/opinf/roms/_base.py:_BaseROM.encode", "src/opinf/roms/_base.py:_BaseROM.decode", "src/opinf/basis/_linear.py:LinearBasis.compress", "src/opinf/basis/_linear.py:LinearBasis.decompress"]}
{"id": "C130", "title": "Without regularization, training does not depend on the coordinates of the inputs", "statement": "Train a model without regularization, and train one with operators of the same classes with B u + e instead of every input u, where B is an invertible matrix, for example with inputs in other units. If e is zero, or if the constant is learned whenever an input operator is and a linear operator whenever a state-input operator is, then the right-hand side of the second model at a state q with the input B u + e is that of the first model at q with the input u: at all training samples, and for all states and inputs if the data determine the operators. In the discrete case the predictions with the respective inputs are the same.", "quantifier": "all dimensions, invertible matrices, shifts, training data, known operators expressed in the respective coordinates, all states, inputs and numbers of steps", "why_tests_cant": "an identity between two trainings over all changes of the inputs; tests compare a few numbers with one choice of inputs", "anchors": ["src/opinf/models/mono/_nonparametric.py:_NonparametricModel.fit", "src/opinf/models/mono/_nonparametric.py:_NonparametricModel._assemble_data_matrix", "src/opinf/models/mono/_nonparametric.py:DiscreteModel.predict", "src/opinf/lstsq/_base.py:PlainSolver.solve", "src/opinf/operators/_nonparametric.py:StateInputOperator.datablock", "src/opinf/operators/_nonparametric.py:InputOperator.datablock"]}
{"id": "C131", "title": "With one regularizer, training does not depend on the signs and the order of the reduced coordinates", "statement": "Train a model with the scalar regularizer lambda of L2Solver, and train one with operators of the same classes and the same regularizer with T q instead of every state q and T z instead of every left-hand side z, where T is an orthogonal matrix that, if quadratic or cubic operators are learned, only reorders the coordinates and changes signs. The second model at T q is T y, where y is the first model at q: at all training samples, and for all states and inputs if lambda is not zero or the data determine the operators. The discrete models predict corresponding states. Hence two reduced-order models whose linear bases differ by the signs or the order of the basis vectors, which no SVD routine fixes, make the same predictions after training with the same trajectories and lambda not zero.", "quantifier": "all dimensions, orthogonal matrices as described, regularizers, training data, known operators expressed in the respective coordinates, all states, inputs, trajectories, initial states and numbers of steps", "why_tests_cant": "an identity between two trainings over all choices of signs and order; tests use whatever the SVD routine returns", "anchors": ["src/opinf/models/mono/_nonparametric.py:_NonparametricModel.fit", "src/opinf/models/mono/_nonparametric.py:DiscreteModel.predict", "src/opinf/lstsq/_tikhonov.py:L2Solver.solve", "src/opinf/operators/_nonparametric.py:QuadraticOperator.datablock", "src/opinf/operators/_nonparametric.py:CubicOperator.datablock", "src/opinf/basis/_pod.py:PODBasis.fit", "src/opinf/roms/_nonparametric.py:ROM.fit", "src/opinf/roms/_nonparametric.py:ROM.predict"]}
{"id": "C132", "title": "Repeating the training data scales the regularization and changes nothing else", "statement": "Train a model with every snapshot given k times, in any order, and the regularizer lambda' of L2Solver, and train the same model with every snapshot once and the regularizer lambda, where lambda'^2 = k lambda^2. Both models give the same at all training samples; if lambda is not zero or the data determine the operators, they have the same operators and agree for all states and inputs. Without regularization it does not matter how often the data are given. With TikhonovSolver the same holds for matrices with G'^T G' = k G^T G, and L2Solver and TikhonovSolver train the same models if G^T G = k lambda^2. The same holds for reduced-order models and whole trajectories given k times, and for interpolatory models with learned operators at every training parameter whose data are given k times, whatever the data of the other parameters. Parametric models trained with every sample k times, distributed over the training sets in any way, agree at all training samples with each of the three solvers, and have the same operators if the regularizer of L2Solver is not zero or, with PlainSolver and TikhonovSolver, the data determine the operators.", "quantifier": "all models, training data, numbers of repetitions k > 0, orders of the samples, regularizers, states and inputs", "why_tests_cant": "an identity between two trainings for all data and numbers of repetitions; tests train once", "anchors": ["src/opinf/models/mono/_nonparametric.py:_NonparametricModel.fit", "src/opinf/lstsq/_tikhonov.py:L2Solver.solve", "src/opinf/lstsq/_tikhonov.py:TikhonovSolver.solve", "src/opinf/lstsq/_base.py:PlainSolver.solve"]}
{"id": "C133", "title": "An interpolated operator stays consistent whatever is called on it", "statement": "After any sequence of set_training_parameters, set_entries, set_interpolator and clearing on an interpolated operator, calls that raise included: entries come with training parameters; an interpolator is there only together with entries, is of the recorded class and was accepted for the training parameters of the operator. If no call raised, the interpolator interpolates the current entries. The interpolator class may be given before or after the entries with the same result, and changing it raises only what the library raises. The interpolator always agrees with the entries.", "quantifier": "every sequence of calls of any length, every interpolation library, all parameters and entries", "why_tests_cant": "a state invariant over all call sequences, including those with calls that raise", "anchors": ["src/opinf/operators/_interpolate.py:_InterpOperator.set_training_parameters", "src/opinf/operators/_interpolate.py:_InterpOperator.set_entries", "src/opinf/operators/_interpolate.py:_InterpOperator.set_interpolator", "src/opinf/operators/_interpolate.py:_InterpOperator._clear", "src/opinf/operators/_interpolate.py:_InterpOperator.evaluate", "src/opinf/operators/_interpolate.py:_InterpOperator.load"]}
{"id": "C134", "title": "An affine operator stays consistent whatever is called on it", "statement": "Whatever sequence of set_entries, setting the parameter dimension, evaluate and clearing is called on an affine operator, calls that raise included: class, number of terms and coefficient functions never change, the number of entry arrays is the number of terms, and a known parameter dimension stays until the operator is cleared. set_entries accepts exactly one array per term, all of the same shape and accepted by the operator class, or one array that splits evenly into such. A call that raises leaves the operator as it was.", "quantifier": "every sequence of calls of any length, all coefficient functions, entries and parameters", "why_tests_cant": "a state invariant over all call sequences, including those with calls that raise", "anchors": ["src/opinf/operators/_affine.py:_AffineOperator.__init__", "src/opinf/operators/_affine.py:_AffineOperator.set_entries", "src/opinf/operators/_affine.py:_AffineOperator.evaluate", "src/opinf/operators/_base.py:ParametricOpInfOperator._clear", "src/opinf/operators/_base.py:ParametricOpInfOperator.parameter_dimension"]}
