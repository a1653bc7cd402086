# Design of the formal model of `opinf` (rom-operator-inference-Python3)

Layout of `/verif/lean`:

* `Verif/Model/*.lean`  – executable model of the Python code, function by function; every definition cites file and lines in `/repo`.
* `Verif/Lemmas/*.lean` – helper lemmas, no claims.
* `Verif/Props/*.lean`  – small independent specifications, the property theorems (`C01_...`) and, beside each, an `example` or witness theorem that meets its hypotheses.

`properties.jsonl` states the claims, `MANIFEST.json` maps them to theorems, `seeded/LOG.jsonl` records the wrong programs the theorems were tried on.

## Modelling conventions

* **Numbers.** Floating point is not modelled. Scalars live in an arbitrary field `K` (a commutative semiring where that is enough, a linearly ordered field where order matters; `ℚ` in examples). Division by zero, which numpy turns into `nan`/`inf`, is returned as an error (`Err.nonfinite`), as a special value (`Val.nan`, `Val.inf`) or excluded by explicit hypotheses; the definitions say which.
* **Arrays.** A vector is a `List K`; a matrix is `Mat K` (number of rows, number of columns, list of rows) or a list of columns (`Cols K`), so flat numpy indices `i*r + j` remain list indices. `Mat.WF` (the rows have the declared shape) is true of every numpy array and appears as a hypothesis. Only the total least-squares bound goes through Mathlib's `Matrix` (`Lemmas/TlsMatrix`, `TlsBridge`, `TlsFeasible`); its statement does not.
* **Exceptions** are values `Except Err α`, one constructor per exception class that the code raises. Where a method changes its object before raising, the model returns the changed object together with the exception.
* **Objects** are structures holding exactly the attributes the modelled methods read or write; methods are functions returning the new structure; histories are lists of operations and the theorems about them are by induction.
* **Polymorphism.** Classes used through an interface (solver in a model, transformer in a pipeline or ROM, basis, lifter) are records of functions (`SolverI`, `TfI`, `BasI`, `LiftI`), so the theorems hold for every implementation; the concrete classes are instances.
* **External libraries** (scipy SVD/eigh/lstsq/solve, interpolators, optimisers, distributions, numpy.gradient, HDF5) are parameters with explicit hypotheses stating the contract that is used.

## Trusted base

* Lean 4.33.0 kernel and Mathlib as installed.
* Axioms: only `propext`, `Classical.choice` and `Quot.sound` (per theorem: see the last section). No axioms of our own, no `sorry`, no `native_decide`, no `bv_decide`.
* The reading of the Python source that produced the model. Nothing was executed; each definition cites the lines it mirrors.
* Contracts of external routines, each a hypothesis of the theorems that use it:

| routine | contract | where |
|---|---|---|
| `scipy.linalg.svd` | `IsSVD` (orthonormal factors that reproduce the matrix); `TallSvd` adds nonnegative, decreasing singular values | C22, C23, C26, C27, C43 |
| `scipy.linalg.lstsq` | `IsLstsq` (least-squares solution, column by column) | C24 |
| `scipy.linalg.solve` | `IsSolution`, `SquareSolve` (an answer implies invertibility) | C06, C24, C27 |
| `numpy.sqrt` | `IsSqrt`/`SquareRoot`: nonnegative with the given square | C36, C43, C54 |
| `x ** p` for real `p` | `PowFn`, `PNorm.Valid` | C41, C54 |
| `numpy.gradient(edge_order=2)` | documented formulas | C34 |
| `scipy.optimize.minimize(_scalar)` | `Optim.Honest`: the reported value is the function value of the reported point | C48, C49, C65 |
| `scipy.stats` normal distributions | `NormalLib.Lawful` | C30, C55, C65 |
| `scipy.interpolate` classes | `ItpLib.Contract`: reproduces the data at the nodes; increasing nodes required by the one-dimensional class | C11, C12, C19, C58, C67, C68 |
| `scipy.integrate.solve_ivp` | an arbitrary function of the model (nothing assumed) | C47, C49 |
| `signal.alarm`, process time | the event sequence of `Model/Timer` | C53 |
| HDF5 | `Model/Hdf5`: a tree of groups, datasets and attributes; scalars, arrays and strings come back as written, `None` cannot be written | C40, C45, C51, C52, C55, C66 |

## What is modelled, and what is not

| code | model | modelled | not modelled |
|---|---|---|---|
| `operators/_nonparametric.py`, `_polynomial_operator.py`, `_base.py` | Kron, CompressedDim, Operators, SetEntries, OpAdd, Equal, Mono, VerifyOp | entries checks, `apply`, `jacobian`, cached Jacobian tensors, `datablock`, `operator_dimension`, compress/expand, `ckron`, `galerkin`, `copy`, `__eq__`, `__add__`, `verify()` | arithmetic with sparse entries (their files are modelled in Sparse), printing, `verify()` output text |
| `operators/_affine.py` | Affine, Sparse, VerifyParam | coefficient forms (callable, list, integer), `set_entries`, `evaluate`, `galerkin`, `datablock`, copy/save/load, dense and sparse terms in files | printing |
| `operators/_interpolate.py` | Interp, VerifyParam | training parameters, class resolution, `set_entries`, `evaluate`, `galerkin`, `datablock`, copy/save/load, `__eq__` | the interpolators themselves |
| `models/mono/_base.py`, `_nonparametric.py` | Mono, Accessors, ModelIO, Continuous, SolverAdapt | constructors, operator accessors, operators setter, dimensions, `galerkin`, `__eq__`, `copy`, fit/refit, `rhs`, `jacobian`, discrete `predict`, continuous `predict` up to the integrator, save/load | `solve_ivp` |
| `models/mono/_parametric.py` | ParamModel, InterpModelIO, Shared | affine/interpolated operators in one model, `_process_fit_arguments`, fit/refit, `evaluate`, `rhs`, discrete fit; `copy`; `_InterpModel` fit/refit, `_from_models`, `set_interpolator`, save/load/copy; operator objects shared by `evaluate` | the HDF5 layout of interpolatory model files (the saved record is modelled) |
| `lstsq/*` | Lstsq, Cond, SolverIO, VerifySolver | template, L2, L2 decoupled, Tikhonov, Tikhonov decoupled (both methods), TSVD, total least squares, posteriors, `residual`/`regresidual`, `get_operator_regularizer`, `lstsq_size`, save/load/copy, condition numbers, `verify()` | text of `__str__` |
| `ddt/*` | FiniteDiff, InterpDdt, DdtCall, VerifyDdt, VerifyDdtTests | all uniform schemes, `ddt()`, nonuniform differencer, input slicing, `InterpDerivativeEstimator`, `verify` | the interpolators themselves, plots |
| `pre/*` | Transform, TransformIO, PreFun, Verify | shift, scale, shift-scale, null, pipeline, multi-variable, save/load, `verify()` | object identity in `verify()`, printing |
| `lift/*` | Lift, VerifyLift | quadratic and polynomial lifters, `verify()` | messages printed |
| `basis/*` | Basis, PodSolver, VerifyBasis | linear basis, POD (all constructors and criteria), multi-variable basis, save/load, `verify()`, `projection_error()` | eigenvalue and SVD routines (contract), plots |
| `roms/_base.py`, `_nonparametric.py`, `_parametric.py`, `_bayes.py` | Rom, RomFit, RomSelect, ParamRom, ParamSelect, RegSelect, Bayes | encode/decode/project/predict, regularization selection, operator posteriors, Bayesian selection | printing, verbose output |
| `utils/_gridsearch.py`, `_timer.py`, `_hdf5.py`, `_requires.py`, `_reprojection.py` | Gridsearch, Timer, Hdf5, Sparse, Reproject | search, timed block, file handles, sparse arrays, re-projection | `_repr.py` |
| `post/_errors.py` | Post | all error measures | – |

## Properties

For each claim: status, how it is modelled and proved, and what is missing or false of the code.

* **C01 – Giving full Kronecker entries never changes the operator's action** (proved; 3 theorems). `compress_entries` and `ckron` as the nested loops over `range`; every index tuple is a permutation of exactly one sorted tuple.
* **C02 – compress_entries and expand_entries are mutually consistent** (proved; 3 theorems). `expand_entries`; entrywise compress(expand Hc) = Hc, and expand(compress H) is symmetric with the same action.
* **C03 – Operator action equals entries times data block** (proved; 4 theorems). `apply`, `datablock`, `operator_dimension` for all operator kinds; lengths and dot products.
* **C04 – jacobian() is the derivative of apply()** (proved; 4 theorems). `jacobian` via the Jacobian tensors; exact Taylor identity with explicit remainder.
* **C05 – Cached Jacobian data never goes stale** (proved; 2 theorems). State machine with entries and cache; invariant by induction over histories.
* **C06 – Galerkin projection of an operator commutes with apply** (proved; 2 theorems). `_galerkin` with solve contract; commutation with the projection.
* **C07 – PolynomialOperator agrees with the dedicated operators** (proved; 3 theorems). `keptIndices_p`/`exp_p` recursion against the nested-loop data blocks.
* **C08 – operator_dimension counts the distinct monomials** (proved; 2 theorems). Closed forms against lengths; binomial identity.
* **C09 – Affine operators are the weighted sum of their terms** (proved; 9 theorems). Affine operator as list of terms; linearity of dot.
* **C10 – A coefficient function of the wrong length is never silently accepted by an affine operator** (partial; 5 theorems). `zip` truncation. **Result:** The property is false of the code: coefficient vectors of the wrong length are accepted and truncated; negation proved in general and with a witness. With the right length nothing is dropped (_partial theorem).
* **C11 – Interpolated operators survive copy, save/load and refit whatever the parameter order** (partial; 6 theorems). State machine for the resolution of the interpolator class. **Result:** False of the code for scalar training parameters that are not in increasing order (default interpolator class): copy, load, projection and a second set_entries raise ValueError; proved for every such operator and with a witness. The remaining cases are proved (_partial theorems). The scipy interpolators are specified by ItpLib.Contract.
* **C12 – Interpolated operators: data block and block entries are aligned with the parameters** (proved; 2 theorems). Alignment of block diagonal and column blocks over lists of parameters.
* **C13 – After fit, the learned model reproduces exactly the regression residual** (proved; 1 theorems). Concatenated data blocks against slices of the learned matrix; induction over the operator list.
* **C14 – operator_matrix returns exactly the learned matrix** (proved; 2 theorems). Slicing round trip; induction over the operator list.
* **C15 – Discrete prediction is the recursion of the model** (proved; 3 theorems). The loop of `predict` as a fold; prefix and semigroup laws.
* **C16 – Trajectory stacking never pairs snapshots across trajectories** (proved; 3 theorems). `stack_trajectories` as flatMap; specification by consecutive pairs. **Result:** Holds for trajectories with at least one state; for an empty trajectory the inputs are misaligned (witness theorem).
* **C17 – Model equality ignores operator order and nothing else** (proved; 2 theorems). Greedy matching against `List.Perm`.
* **C18 – Galerkin projection of a model commutes with its right-hand side** (proved; 1 theorems). Sum over operators of C06.
* **C19 – Models built by interpolation with known operators fit the stated regression** (partial; 6 theorems). Both passes of `_process_fit_arguments`. **Result:** False of the code when operators are known: fit() subtracts their contribution twice (once as op(mu_i), once as entries[i]); proved in general (C19_twice, C19_residual_wrong) and with a witness. Without known operators the stated regression is solved (C19_exact_partial).
* **C20 – A model that has been copied or saved and re-loaded can be refitted** (partial; 5 theorems). State machine for the fully-intrusive flag and operator indices. **Result:** The refit half of the property is false of the code: copies and reloaded versions of a trained model are treated as fully intrusive, so fit() and refit() silently do nothing (proved for every trained model); the same-behaviour half is proved in full.
* **C21 – Input arguments are required exactly when an operator uses inputs** (proved; 6 theorems). Decision logic of `_check_inputargs`.
* **C22 – L2 solver returns the minimiser of the regularised objective** (proved; 3 theorems). SVD factors as hypotheses; normal equations and strict convexity.
* **C23 – Decoupled solvers treat every row independently with its own regulariser** (proved; 3 theorems). Row-wise form of C22.
* **C24 – Tikhonov solver minimises the weighted objective, by either method** (proved; 5 theorems). Normal equations; completion of the square.
* **C25 – get_operator_regularizer penalises each operator with its own weight** (proved; 3 theorems). List of (dimension, weight) blocks.
* **C26 – TruncatedSVDSolver keeps the number of modes the user asked for** (partial; 7 theorems). State machine for the number of modes. **Result:** The truncated-solution formula and minimal-norm least-squares characterisation hold for a first fit with an in-range number of modes; negations proved: a second fit can lose or regain modes and nmodes below -p is not rejected.
* **C27 – Total least squares returns a perturbation that solves the problem exactly** (proved; 7 theorems). The SVD as hypothesis; feasibility by block algebra, minimality by an Eckart–Young argument for matrices over an ordered field (trace inequality for projections), transported to lists.
* **C28 – A failed fit or regulariser assignment leaves the solver usable and consistent** (partial; 15 theorems). Solver state machines including failing operations. **Result:** Proved for L2Solver and L2DecoupledSolver histories without failing decompositions; false of TikhonovSolver and TikhonovDecoupledSolver after a refused refit and of decoupled solvers after a rejected assignment (negations proved with witnesses).
* **C29 – Solver residuals and regularised residuals measure the objective** (proved; 7 theorems). Row-wise sums of squares.
* **C30 – The Bayesian posterior is centred at the regularised solution** (proved; 5 theorems). Mean and precision; positive definiteness.
* **C31 – Finite differences are exact on polynomials up to their order** (proved; 5 theorems). Stencil coefficients as lists; exactness on polynomials by linearity.
* **C32 – Estimated derivatives stay aligned with returned states and inputs** (proved; 3 theorems). numpy slices; index arithmetic.
* **C33 – The accuracy self-test compares derivatives at matching times** (partial; 2 theorems). The `start` computation. **Result:** The property is false of the code: verify() compares aligned times iff the scheme's first estimate is at the first snapshot; negation proved with a concrete witness and exact characterisation.
* **C34 – Second-order differences on nonuniform grids are exact on quadratics** (proved; 2 theorems). Documented formulas of numpy.gradient as contract.
* **C35 – Transformers are invertible on every state** (partial; 10 theorems). Transformers as functions on snapshots; inverse identities. **Result:** Proved in full except one case in which the property is false of the code: ShiftScaleTransformer with byrow=True and no scaling raises TypeError in inverse_transform(locs=...); negation proved, all other locs cases in the _partial theorem.
* **C36 – Scaled training data land in the promised range** (proved; 9 theorems). Minimum, maximum, mean and mean square over lists. **Result:** Ranges and means of the training data for every calibration that gives finite numbers; for minmax/minmaxsym this is proved to be exactly the non-constant data. standard/maxnorm use a square root with its defining property.
* **C37 – transform_ddts is the derivative of transform** (proved; 6 theorems). Linearity.
* **C38 – Calibration is deterministic: fit_transform equals fit then transform** (proved; 8 theorems). State machine of ShiftScaleTransformer.
* **C39 – Multi-variable splitting is a partition** (partial; 8 theorems). Cumulative sums against successive take/drop. **Result:** Proved for TransformerMulti and BasisMulti (the latter if equal total dimensions mean equal dimensions, see C46); get_var(-1) returns an empty array instead of the last variable (C39_get_var_minus_one_empty).
* **C40 – Saved transformers load back equal** (partial; 18 theorems). Abstract HDF5 store; save and load functions per class. **Result:** Round trip proved for every reachable ShiftScaleTransformer, for Shift, Null, Scale and multi-variable transformers; the property is false of the code in cases proved as negations: one-entry array scalings load as numbers, a pipeline's own name None loads as 'None', classes other than ShiftScaleTransformer are never == to their loaded copies, a scale_ assigned without shift_ cannot be saved.
* **C41 – Lifting is invertible and differentiates correctly** (partial; 16 theorems). Polynomial lifters over lists. **Result:** Inversion proved in full (orders containing 1: any states; without 1: exact characterisation). Derivative proved wherever lift_ddts is finite; with an order 0 it is NaN at zero states although the lifted variable is constant (negation C41_polynomial_ddts_zero_order).
* **C42 – Linear bases project** (proved; 11 theorems). Weighted inner products over lists; best approximation.
* **C43 – POD dimension criteria choose the smallest adequate dimension** (partial; 16 theorems). searchsorted/count_nonzero over monotone lists; minimality. **Result:** Proved as stated for cumulative_energy (class and function), the function residual_energy and svdval_threshold. For the class criteria residual_energy and projection_error the claim is false at ties: the code compares with >=, so it picks the smallest r whose residual is strictly below the threshold (C43_residual_partial, negation C43_residual_not_least); away from ties the claim holds (C43_residual_no_tie).
* **C44 – POD entries always are the leading r left singular vectors** (partial; 8 theorems). State machine of the POD entries; invariant. **Result:** Proved for all histories that never ask for a negative number of vectors; with a negative dimension the slices of vectors and singular values differ when fewer vectors than singular values are stored (C44_negative_dimension_witness).
* **C45 – A saved POD basis loads back with the same dimension** (partial; 14 theorems). Save/load of the POD state. **Result:** False as stated: an assignment to reduced_state_dimension of a trained basis is not saved (C45_setter_lost_witness) and load(max_vectors=m) can increase the dimension for num_vectors (C45_max_vectors_increases_witness). C45_pod_load says exactly what is loaded; C45_pod_save_load_partial and C45_max_vectors_partial give the claim where it holds.
* **C46 – Multi-variable bases act block-wise** (partial; 20 theorems). Block-wise lists. **Result:** Assumes that equal total dimensions mean equal dimensions, which holds whenever no basis has more vectors than rows (C46_no_ambiguity); without it the claim fails (C46_ambiguity_witness).
* **C47 – A ROM's prediction is decode of the model's prediction from the encoded state** (partial; 24 theorems). Composition of partial functions with optional parts. **Result:** Order of the steps, predict, decode-encode round trips, lhs handling and fit flags proved for every combination of parts; project idempotent and decode(locs) proved without a lifter (locs: with a basis). False of the code otherwise: with a lifter project is not idempotent and locs select wrong entries, without a basis locs are ignored or combined with the parameters of other locations (negations proved).
* **C48 – Grid search never returns something worse than a candidate** (proved; 7 theorems). Fold over candidates with finite, infinite and NaN values.
* **C49 – Regularisation selection never selects an unstable candidate and leaves the model fitted with the winner** (proved; 9 theorems). State machine threading the model through the search.
* **C50 – Regularisation selection can be repeated after the basis dimension changed** (partial; 5 theorems). The reset is guarded by an attribute that models do not have. **Result:** False of the code: the solver is never reset (hasattr(self.model,'reset') is always false), so a TikhonovSolver that still holds the regularization matrix of an earlier dimension raises DimensionalityError (C50_tikhonov_raises, for all such calls; C50_second_call_witness, a concrete pair of calls). Proved where it holds: L2Solver after any sequence of selections, TikhonovSolver if reset by hand.
* **C51 – Saving with overwrite=False never destroys an existing file** (proved; 5 theorems). File system as finite map; induction over histories.
* **C52 – Loading a saved object twice or after saving another one gives the last saved object** (partial; 4 theorems). As C51, with an exception in the middle of a save. **Result:** Holds for every history of saves whose bodies do not raise; a save that raises midway has already truncated the old file (negation proved, with a ShiftScaleTransformer as witness).
* **C53 – Timed blocks report and enforce time limits** (partial; 10 theorems). Alarm state machine over event sequences. **Result:** Proved for blocks without limited blocks inside (timeout iff the limit elapses, no alarm pending afterwards, exceptions leave the block). False of the code for nested blocks: an inner block with a limit cancels the limit of the outer one (C53_nested_limit_lost, C53_nested_witness). The reported time is processor time, so the documented sleep example reports 0 (C53_elapsed_witness).
* **C54 – Error measures are zero exactly for equal data and scale correctly** (partial; 15 theorems). Sums of squares and p-powers in ordered fields. **Result:** Proved in full for frobenius_error, lp_error, Lp_error with p=inf and projection_error; for Lp_error with finite p the zero-iff-equal half needs at least two increasing times and is false for a single time (negation proved for all data).
* **C55 – Drawing operators from a saved posterior works as from the original** (partial; 7 theorems). Two internal representations with the library's different draw shapes. **Result:** Saving and loading gives an equal posterior if the library accepts the covariance arrays (otherwise load raises). The statement on draws is false of the code: from a loaded posterior rvs() returns a vector of first entries, or raises IndexError for d = 1 (C55_loaded_draw_wrong_shape, C55_loaded_draw_raises, C55_witness).
* **C56 – lstsq_size equals the number of columns of the data matrix** (proved; 3 theorems). Sum of operator dimensions.
* **C57 – Model construction accepts exactly the well-formed operator lists** (proved; 7 theorems). Decision logic of the operators setter.
* **C58 – Parametric models evaluate consistently** (proved; 16 theorems). Sums over operators of evaluated operators; one regression over all parameters. `runUses` is any sequence of uses of one model object, `SlotLearned` what may have changed (`C58_any_calls`, `C58_calls_independent`, `C58_calls_known`); a raising call at a parameter of another dimension is remembered (`C58_calls_dimension_witness`, the finding of C134).
* **C59 – A failed fit leaves no stale learned operators** (proved; 1 theorems). State machine of the model.
* **C60 – Fitting a model again forgets earlier fits** (proved; 3 theorems). Histories of fits.
* **C61 – A rejected assignment to operators leaves the model unchanged** (partial; 2 theorems). Operators setter with rejected lists. **Result:** The property is false of the code: a rejected assignment changes the has-inputs flag and possibly the state dimension; negation proved with a witness, and what does survive is proved in the _partial theorem.
* **C62 – Learned operators are optimal for the training data** (proved; 3 theorems). C13 with the optimality of the solver.
* **C63 – DiscreteModel.fit pairs each state with its successor** (proved; 2 theorems). Discrete data from trajectories.
* **C64 – Noise-free discrete trajectories are reproduced** (proved; 1 theorems). Discrete data from trajectories.
* **C65 – Bayesian regularization selection ends with the posterior of the selected regularization** (proved; 11 theorems). Bayesian selection over candidate posteriors.
* **C66 – Affine operators survive copy() and save()/load()** (partial; 4 theorems). Copies and files of affine operators. **Result:** Proved for callable and list-of-callables coefficients; false of the code for integer coefficients, where load() raises AttributeError (proved).
* **C67 – A parametric model with a known interpolated operator can be fitted** (partial; 2 theorems). `set_training_parameters` on a known interpolated operator. **Result:** False of the code: set_training_parameters is called on every interpolated operator, so fit() raises AttributeError for every such model, proved for all data and solvers and with a witness.
* **C68 – An interpolatory model can be fitted again** (partial; 3 theorems). The interpolator class kept from the first fit. **Result:** False of the code for scalar training parameters that are not increasing: after a successful fit, no further fit with these parameters and no refit succeeds; proved in general and with a witness (sorted parameters work there).
* **C69 – The training data of a reduced-order model are the encoded trajectories** (proved; 10 theorems). Trajectories are processed step by step; relations per trajectory are composed.
* **C70 – Training a reduced-order model minimises the residual over all trajectories** (proved; 7 theorems). C62 for the concatenated data, regrouped by trajectory. **Result:** For training data whose left-hand sides and inputs have as many columns as the states, trajectory by trajectory; proved to hold for estimated derivatives (C70_estimated_aligned, C70_finite_differences_align) and for fully discrete models (C70_discrete_aligned). Least squares, SVD and positive definite solves are specified by contracts.
* **C71 – Trajectories with mismatching left-hand sides or inputs are refused** (partial; 7 theorems). Concatenation forgets where a trajectory ends; `zip` stops at the shorter list. **Result:** False of the code: with a derivative estimator, trajectories without inputs are silently dropped (zip); given left-hand sides are matched only by the total number of columns; with given next states of a fully discrete model, longer inputs are cut at the total and thereby shifted between trajectories. Each proved in general and with a witness. The finite-difference estimator does check the inputs of each trajectory (C71_estimator_checks_partial).
* **C72 – Selecting the regularization of a reduced-order model leaves what training with the selected regularization gives** (proved; 15 theorems). Refinement of `FRom.selectDiscrete/selectContinuous` to `FRom.fit` with the regularizer set first (`SelectedAsTrained`); stability stated through means and deviations (`StaysNear`). **Result:** For nonparametric models and a solver that has not been fitted before (Commute: L2Solver always, TikhonovSolver without data; see C50 for solvers used before). The integrator of a time-continuous model is a parameter.
* **C73 – The selected model is stable over the test horizon** (partial; 7 theorems). Number of predicted states against the number of snapshots; the extended time domain; NaN in comparisons. **Result:** False of the code. Discrete: the prediction has k-1+N states for k snapshots, so only N-1 iterations after the data are checked and with N=0 the last snapshot is not reached (C73_discrete_partial, C73_blind, C73_discrete_witness). Continuous: for T below one time step nothing is checked, below two steps only one time (C73_continuous_short); from two steps on the checked times reach one step beyond T (C73_continuous_partial). A complete solution with NaN counts as stable (C73_nan_accepted, C73_nan_witness).
* **C74 – A POD basis is orthonormal and approximates the training states best** (proved; 2 theorems). `BestBasis`: entries orthonormal for the weights and, for all vectors `us` (at most as many) and coefficients `cs`, the squared distance between training states and their projection is at most `approxError us cs`; proved through a lower bound for matrices over an ordered field (`approx_lower`), for the state after `fit` followed by any list of dimension changes; residual energy times total energy = squared distance **Result:** Exact arithmetic; the singular value decomposition, matrix square root and Cholesky solve are parameters with stated contracts (IsThinSvd, RootOf). The randomized solver does not meet the contract.
* **C75 – The method of snapshots yields the POD of the training states** (partial; 7 theorems). Model of `method_of_snapshots` with `eigh` as a parameter (contract `IsEigh`); orthonormality, `Q psi = sigma phi`, the exact list of returned values, optimality of the POD basis, and the error versus the reported residual energy with the lost energy made explicit; negations for the smallest eigenvalue, for orthogonal and for single snapshots **Result:** False of the code: the threshold is max(minthresh, |least eigenvalue|) although only negative eigenvalues were meant to raise it, so the smallest singular value is never returned (C75_smallest_dropped), equally long orthogonal snapshots and single snapshots cannot be fitted at all (C75_orthogonal_snapshots, C75_single_snapshot_witness), and residual_energy ignores the dropped energy (C75_energy_witness). Proved: the returned triples are singular triples (C75_decomposition), which values are returned (C75_kept_partial), the basis is optimal and the exact relation between residual_energy and the error (C75_best_basis_partial).
* **C76 – Training recovers the model that generated the data** (proved; 4 theorems). From optimality (C62): zero loss is attained by the generating operators, so the learned rows agree with theirs on all data vectors; `Informative` says that these span the space. Necessity: `C76_not_determined`.
* **C77 – Re-projected data belong to the intrusive reduced-order model, and training on them recovers it** (proved; 9 theorems). Model of `_reprojection.py` for an arbitrary system; exact characterisation of both functions, and for the right-hand side of a trained model: equality with the Galerkin projection (C18) and recovery (C76).
* **C78 – The Jacobian of a model is the derivative of its right-hand side** (proved; 3 theorems). Sum of the operator results (C04) with one polynomial remainder; uniqueness by comparing four steps.
* **C79 – ContinuousModel.predict() integrates the right-hand side of the model with the given inputs** (proved; 6 theorems). Model of `ContinuousModel` up to the call of `solve_ivp` (the arguments of the call are the result); `CubicSpline` is a parameter with the contract `PassesThrough`. Exact characterisation of accepted arguments, integrand, Jacobian.
* **C80 – InterpDerivativeEstimator returns the interpolated states, their derivatives and the inputs at the same times, and mask() agrees with it** (proved; 11 theorems). Interpolators are parameters (`SplineLib`); `Samples` says what an array of values of a function is. Exact characterisation of `estimate`, equality with `mask`, alignment in the sense of C70 (`C80_aligns`), consequences for lawful interpolators; polynomial interpolation is shown to be one.
* **C81 – verify() leaves an InterpDerivativeEstimator as it was** (partial; 4 theorems). The estimator before and after `verify` for arbitrary test problems; negation with an interpolator whose options only fit two rows. **Result:** False of the code: verify() sets the new time domain to None and, in the base class, replaces the time domain, and restores them only if no exception is raised; with an interpolator that refuses the random verification data (for example options that fit only the actual number of rows) later estimates are taken at different times (C81_verify_not_harmless, C81_verify_error). Proved: a successful verify() changes nothing (C81_verify_ok), and it succeeds whenever the interpolator accepts the data (C81_verify_passes).
* **C82 – Solvers survive save()/load() and copy()** (partial; 16 theorems). `RoundTrip`: writing the file and reading it gives the solver, for every file system; the classes one by one, histories of operations for `L2Solver` and `TikhonovSolver`; the cases in which saving raises (`SaveFails`). **Result:** False of the code in three cases: a TruncatedSVDSolver for all modes (num_svdmodes=None) cannot be saved before fit() (C82_tsvd_all_modes); decoupled Tikhonov regularizers of different shapes, which are accepted before fit(), cannot be saved (C82_tikhonov_decoupled_shapes); after a fit() that failed in the decomposition, save() and copy() raise AttributeError (C82_failed_fit). In all three an existing file is destroyed. Otherwise proved for all classes. Options "NULL" are excluded by hypothesis (they are read as None). Condition numbers are not modelled.
* **C83 – Interpolatory models made from trained models agree with them, and survive copies, files and changes of the interpolator** (partial; 14 theorems). Interpolatory models with the class stored at the model (`IObj`); `Ready` is the invariant established by `fit()` (`C83_fit_ready`) and by making a model from models, and preserved by copies, files and `set_interpolator`; `C83_from_models` for the values at the parameters; `C83_unsorted` is the negation for unsorted parameters with the default class; `C83_not_refittable`: a copy or loaded model of a trained one counts as fully intrusive. **Result:** False of the code with scalar parameter values that are not in increasing order and the default interpolator class: the model can be made, but copies and loading raise ValueError (C83_unsorted, proved for all such models). Proved otherwise: values at the parameters, copies, files, changes of the interpolator. Copies and loaded models cannot be trained again (C83_not_refittable).
* **C84 – A model saved to a file is the model loaded from it** (partial; 7 theorems). The file contents as HDF5 groups; `C84_file_contents` reduces loading to the abstract round trip used in C20; files through the save and load handles. The solver is written but never read: `C84_solver_lost`, `C84_solver_witness` (negation). **Result:** False of the code for the solver: it is written but not read, loaded models with operators to learn have PlainSolver (C84_solver_lost for all such models, C84_solver_witness). Everything else is proved: operators, roles, dimensions, behaviour, refusals, errors.
* **C85 – Training a parametric model is optimal over all training parameters** (proved; 4 theorems). `PFitOptimal`: the learned entries against any entries that `set_entries` accepts (`PSlot.Reset`, with any interpolating class); the fitted model itself is among the competitors, and the right-hand sides of all competitors exist. `C85_l2`, `C85_plain`, `C85_tikhonov`; `C85_recovers` for data generated by the model.
* **C86 – Parametric reduced-order models train on the encoded trajectories and reproduce what their model class can represent** (proved; 10 theorems). `PRom` shares the processing of `FRom` (C69) with a model that is not used; models enter through `ParI`. The training data are characterised exactly (iff) in the four cases; optimality from C85, reproduction from `C85_recovers`, the usability of the trained operators (`C58_fit_usable`) and C15; samples as sets of pairs (`pairs_mem`).
* **C87 – Parametric training data of different lengths are refused** (partial; 9 theorems). `LengthsAccepted` lists the numbers for which training is not refused, in all cases (`C87_accepted_partial`); the remaining cases are shown to drop data: `C87_surplus_lhs`, `C87_surplus_inputs`, `C87_surplus_states`, `C87_surplus_inputs_discrete` (negations, for any kind of parametric model), with witnesses. **Result:** False of the code: surplus left-hand sides (with lifter, time-continuous), surplus inputs (fully discrete), surplus inputs and surplus trajectories (estimated derivatives with inputs) are silently ignored (zip); each proved in general and with a witness. C87_accepted_partial characterises what is refused in all other cases; C87_refused_partial is the full claim for time-continuous models with given left-hand sides and no lifter.
* **C88 – Selecting the regularization of a parametric reduced-order model is training with the selected regularization** (partial; 20 theorems). `PSelectedAsTrained` compares the outcome with `fit` on an object to which the selected regularization was given (`C88_select_partial` for any test cases, `C88_discrete_partial` and `C88_continuous_partial` for the two methods, `C88_interpolatory_partial`, `C88_interpolatory_discrete_partial`, `C88_interpolatory_continuous_partial`). `C88_discrete_scores`, `C88_continuous_scores`: what is compared, in terms of `PDiscTest.Passed`, `PFollows` and their time-continuous counterparts; `C88_discrete_passed` and its variants: what the selected model does; `C88_continuous_arguments`; `C88_discrete_refused`, `C88_continuous_refused`. `C88_predictions`: predictions during the search do not change the model. Negations: `C88_unordered`, `C88_interpolatory_unordered` (the selection never succeeds), with `C88_unordered_witness`, and `C88_later_fit_witness`. **Result:** False of the code in two ways, proved: with the default interpolator and scalar parameters that are not increasing the selection never succeeds although training does (C88_unordered, C88_interpolatory_unordered, witness); for interpolatory models a later fit() uses the old regularization (last clause; C88_interpolatory_partial shows the solver is the old one, witness C88_later_fit_witness). Proved otherwise: the outcome is that of training with the selected regularization, for parameters in increasing order, vector parameters or a given class of interpolators. For time-continuous models what is compared (C88_continuous_scores) is stated for integrators that give numbers.
* **C89 – verify() of a transformer accepts exactly the consistent transformers** (partial; 18 theorems). `TfI.verify` models the template method with the random numbers as arguments (`Draw`). `C89_accepts` (any transformer with the contracts of C35, C37 and `TfI.Estimates`, i.e. compatibility with `ddt.ddt`), `C89_accepts_without_ddts`, `C89_shift`, `C89_scale`, `C89_null`, `C89_shiftscale_partial`, `C89_pipeline`, `C89_multi`; `C89_accepted` is the converse, and `C89_accepted_iff` the equivalence with the shapes, for transformers that respect `inplace=False` (`C89_builtin_careful`). `C89_untrained`, `C89_multi_refused`. Negations: `C89_unscaled_byrow_refused`, `C89_pipeline_of_multi_refused`, `C89_overwriting_accepted`. **Result:** False of the code in three ways, proved: byrow without scaling is always refused (C89_unscaled_byrow_refused), so are pipelines ending in a multi-variable transformer (C89_pipeline_of_multi_refused), and an overwriting transformer is accepted (C89_overwriting_accepted). Everything else is proved.
* **C90 – verify() of a basis accepts exactly the bases that project** (partial; 12 theorems). `BasI.verify` models the template method with the random numbers as arguments (`Draw`). `C90_outcome` (any basis that works on its shapes: the exact result), `C90_accepts`, `C90_linear`, `C90_linear_outcome` (any entries), `C90_pod`, `C90_pod_fitted` (every POD basis fitted with the dense solver), `C90_multi_outcome`, `C90_multi`; `C90_accepted` is the converse for bases of any class; `C90_untrained`, `C90_multi_refused`. Negation: `C90_small_accepted`. **Result:** False of the code in one direction, proved: bases with small entries are accepted whatever they do (C90_small_accepted). Everything else is proved; for POD bases the singular value decomposition is taken on trust.
* **C91 – projection_error() of a basis is the smallest error any coordinates give** (partial; 9 theorems). `BasI.projectionError` models the method. `C91_value`, `C91_error`, `C91_zero_iff_fixed` (bases of any class), `C91_zero_iff` (orthonormal, any weights), `C91_best` (orthonormal, no weights: minimality and relative error at most 1), `C91_post`, `C91_multi`, `C91_pod_residual`. Negation: `C91_weighted_false`. **Result:** Minimality is false of the code for bases with weights, proved (C91_weighted_false); it is proved for bases without weights (C91_best). Everything else is proved; for POD bases the singular value decomposition is taken on trust.
* **C92 – ddt() estimates the derivative the arguments ask for** (partial; 7 theorems). `ddtCall` models the argument handling of `ddt()` and `ddtUniformTyped` the data type of the array of estimates. `C92_estimators_agree`, `C92_call_iff` (against the inductive specification `Requested` of the documented calls), `C92_vector_refused`, `C92_type_errors`. Negation for states of an integer type: `C92_integer_false`; `C92_integer_states_partial` and `C92_integer_iff` say how far off the estimates are and when they are right. **Result:** False of the code for states of an integer type, proved (C92_integer_false), with the exact condition for right estimates (C92_integer_iff) and a bound (C92_integer_states_partial). Everything else is proved.
* **C93 – verify() of a lifting map accepts exactly the consistent lifting maps** (partial; 12 theorems). `LiftI.verify` models the template method on top of `ddtCall`. `C93_accepted_iff` (lifting maps of any class), `C93_time_required`, `C93_not_recovered`, `C93_vector_refused`; for the quadratic map `C93_quadratic` (exact criterion and outcome), `C93_affine_states`, `C93_fine_mesh` (an explicit mesh width), `C93_mesh_refinement` (over ℝ), `C93_coarse_refused`; for polynomial maps `C93_polynomial_recovers`, `C93_even_orders`. Negation: `C93_wrong_accepted`. **Result:** False of the code in one direction, proved: a wrong lift_ddts() is accepted for suitable states whatever the tolerance (C93_wrong_accepted). Everything else is proved.
* **C94 – verify() accepts exactly the consistent operators** (partial; 16 theorems). `OperI.verify` models the template method over an interface of the methods of a class, with the random numbers as arguments, and `OpInfI.verify` the extension for operators with entries. `C94_accepted_iff` (any class, any draws), `C94_files`; for the operators of the package `C94_builtin_accepted`, with `C94_difference_bound` and `C94_differences_converge` for the difference quotients of the quadratic, cubic and quartic operators, and `C94_classes_accepted`, `C94_no_entries`. Negations: `C94_existing_file_deleted`, `C94_builtin_deletes_file`, `C94_zero_jacobian_accepted`, `C94_galerkin_unchecked`, `C94_small_state_refused`, `C94_not_static_refused`. **Result:** False of the code in four respects, proved: an existing file of the temporary name is deleted, a zero Jacobian is accepted for every operator, correct quadratic operators are refused for small drawn points, classes with a non-static operator_dimension (PolynomialOperator) are refused. The exact criterion and the acceptance of the other operators of the package are proved.
* **C95 – verify() accepts exactly the consistent parametric operators** (partial; 7 theorems). `ParamOpI.verify` models the template method over an interface of the class; `affineParI` and `interpParI` are the classes of the package. `C95_accepted_iff`, `C95_affine_accepted`, `C95_interp_accepted`, `C95_no_state_dimension`, `C95_scalar_parameter`, `C95_unknown_dimension`. Negation: `C95_fresh_affine_refused`. **Result:** False of the code for affine operators whose parameter dimension is not known yet, proved (C95_fresh_affine_refused). Everything else is proved.
* **C96 – verify() accepts exactly the consistent least-squares solvers** (partial; 14 theorems). `LsqI.verify` models the template method over an interface of the class; `plainLsqI`, …, `tlsLsqI` are the seven classes of the package. `C96_accepted_iff` (any class), `C96_untrained`, `C96_files`, `C96_plain`, `C96_l2`, `C96_l2_decoupled`, `C96_tikhonov`, `C96_tikhonov_decoupled`, `C96_tsvd`, `C96_tls` (with the shapes of the results of the library routines as hypotheses), `C96_failed_fit`, `C96_small_solution`. Negations: `C96_existing_file_deleted`, `C96_singular_refused`. **Result:** False of the code for the files: an existing file `_solververification.h5` is deleted, proved (C96_existing_file_deleted). Everything else is proved; a fitted L2Solver with regularizer zero and singular data is refused (C96_singular_refused).
* **C97 – verify() of a derivative estimator accepts exactly the estimators with consistent shapes, restores the time domain and reports the errors of the estimates** (partial; 18 theorems). `estShapes`, `estVerify` model the template methods over any `estimate`; `uniformEst`, `nonuniformEst` are the two finite difference classes, `ddtTests` the six test problems over the reals. `C97_shapes_iff`, `C97_accepted_iff` (with restoration on success), `C97_failed_state`, `C97_reported` (what is compared), `C97_uniform`, `C97_too_short`, `C97_nonuniform`, `C97_exact_reported`, `C97_linear_reported`, `C97_nonuniform_exact`, `C97_builtin_report`. Negations: `C97_misreported`, `C97_report_not_errors` (backward and central schemes), `C97_not_restored`, `C97_input_derivatives_unchecked`. **Result:** False of the code in three respects, each proved: the report of backward and central schemes compares derivatives at different times (C97_misreported, C97_report_not_errors); the time domain is not restored if a test problem fails (C97_not_restored); derivatives returned together with inputs are not checked (C97_input_derivatives_unchecked). The remaining parts are proved in full.
* **C98 – The condition numbers reported by the least-squares solvers are the condition numbers of the documented matrices** (partial; 15 theorems). `L2.cond`, `L2.regcond`, `L2.regcondDec`, `Tik.regcond`, `Tik.regcondDec`, `Tsvd.tcond`, `TlsC` model the methods; `np.linalg.cond` and the decomposition are contracts (`NpCond`, `ThinSvd`). The specification `CondVal` is stated with attained extremes of the quotients `|A x|^2 / |x|^2` and determines finite values (`C98_unique`). `C98_cond`, `C98_regcond`, `C98_regcond_decoupled` (at least as many data points as unknowns), `C98_tikhonov`, `C98_tikhonov_decoupled`, `C98_tcond`, `C98_augcond`, `C98_untrained`. Negations: `C98_regcond_wide_partial` and `C98_regcond_not_cond` (fewer data points than unknowns), `C98_tcond_no_modes`, `C98_refused_fit`, `C98_augcond_stale`. **Result:** False of the code for underdetermined data (C98_regcond_wide_partial, C98_regcond_not_cond), for zero retained modes (C98_tcond_no_modes) and after a refused fit (C98_refused_fit, C98_augcond_stale); each is proved. The remaining parts are proved in full.
* **C99 – shift() and scale() center and scale snapshots, invert each other, and agree with the transformer classes** (partial; 18 theorems). `preShift`, `preScale` model the functions with numpy's broadcasting. `C99_shift`, `C99_shift_column`, `C99_shift_back`, `C99_shift_refused`, `C99_shift_learned`, `C99_shift_learns_iff`; `C99_scale` (documented formula), `C99_scale_back`, `C99_scale_learned` (range exactly the given interval), `C99_scale_learns_iff`, `C99_scale_learned_refused`; refinement: `C99_shift_transformer`, `C99_centering`, `C99_minmax`, `C99_minmaxsym`. Negations: `C99_shift_sizes` and `C99_shift_broadcasts` (sizes that broadcast are accepted), `C99_scale_decreasing`. **Result:** False of the code for shift vectors whose size broadcasts (C99_shift_sizes, C99_shift_broadcasts) and for decreasing bounds (C99_scale_decreasing); each is proved. The remaining parts are proved in full.
* **C100 – pod_basis() returns the leading singular vectors, and the SVD solver of a POD basis can be exchanged** (partial; 14 theorems). `SvdArg.label`, `svdOptions`, `SolverPod.make/setSolver/setOptions/fit`, `podBasis` model the solver, its options and the function on top of `Pod`. `C100_solver_names`, `C100_solver_labels`, `C100_refused_setting`, `C100_options` (the options with which the solver is called), `C100_fit_keeps`; `C100_function_is_class`, `C100_pod_basis` (specification `PodResult`), `C100_counts`; `C100_change_solver_partial` (all sequences of settings). Negations: `C100_change_solver_fails`, `C100_change_solver_witness`, `C100_options_dictionary`, `C100_randomized_components`. The method of snapshots in `pod_basis()` is covered only through `C100_function_is_class` and C75. **Result:** False of the code when the solver of a weighted basis is changed from the method of snapshots to another one (C100_change_solver_fails, C100_change_solver_witness), for options given as a dictionary (C100_options_dictionary) and for the number of values of the randomized solver (C100_randomized_components); each is proved. The remaining parts are proved.
* **C101 – Operators accept exactly the documented entries and keep the last accepted ones** (proved; 15 theorems). `EntryArg`, `screenEntries`, `OpKind.promote`, `tensorShape`, `OpKind.setDense/setSparse/newEntries`, `EntOp.set/del/make/shape/stateDim` model `set_entries` before the matrix case of `OpKind.setEntries`. `C101_accepts_iff` (specification `OpKind.Documented`), `C101_refused`, `C101_nonfinite`, `C101_not_an_array`; `C101_matrix_action`, `C101_tensor_action`, `C101_compressed_kept`, `C101_vectors`, `C101_sparse_as_dense`; `C101_history`, `C101_usable`, `C101_always_usable` (inductions over assignments and deletions), `C101_construct`. What `compress_entries` does with a sparse matrix is a parameter.
* **C102 – Objects that compare equal act alike** (partial; 14 theorems). `Interp.pyEq`, `weightsEq`, `LinB.pyEq` (comparisons by `np.allclose`), with `Sst.beq` and `multiEq`. Exact meaning: `Sst.beq_spec`, `C102_multi`, `C102_interp_eq_iff`, `C102_basis_eq_iff`. `C102_trained_equivalence`, `C102_equal_transformers_act_alike` for trained transformers; `C102_interp_reflexive`, `C102_interp_act_alike_partial`, `C102_basis_reflexive`, `C102_basis_act_alike_partial`. Negations: `C102_untrained_asymmetric`, `C102_not_reflexive`, `C102_interp_witness`, `C102_basis_witness`. **Result:** False of the code for untrained transformers (C102_untrained_asymmetric, C102_not_reflexive), for interpolated operators and for weighted bases, which are compared within tolerances (C102_interp_witness, C102_basis_witness); each is proved. Proved for trained transformers, and for interpolated operators and bases whose arrays agree exactly.
* **C103 – A model evaluated at a parameter is independent of the parametric model** (partial; 10 theorems). `Store`, `HModel`, `HFrozen`, `PCall.run`: operators are objects in a store and models hold references. `C103_call`, `C103_fit`, `C103_refit`, `C103_evaluate` (refinement: on contents the methods act as the value-level model says), `C103_evaluated_later` (exactly what an evaluated model is after any calls), `C103_independent_partial`, `C103_copy_independent`, `C103_not_trained`; negation: `C103_refused_fit` (general), `C103_witness` (concrete). Assumed: the operators of one model are different objects. **Result:** False of the code if the model has nonparametric operators to be inferred: the evaluated model shares them (C103_witness, C103_refused_fit). Proved: independence when no nonparametric operator is inferred (C103_independent_partial), the exact contents after any calls in general (C103_evaluated_later), independence of copies, and that evaluated models cannot be trained.
* **C104 – compress_entries() and expand_entries() find the state dimension from the number of columns** (proved; 6 theorems). `newtonLoop`, `cubicStep`, `quarticStep`, `roundEven`, `floorRoot`: Newton's method as in the code, on rational numbers. `C104_found` (convergence in ten steps: the relative error is at most squared in each step), `C104_never_wrong`, `C104_compress`, `C104_expand` (refinement: the functions do what the exact search `Kind.rOfDim`, `exactRoot` of `Model/Kron` does, to which C01 and C02 refer), `C104_round_trip`; `C104_limit` shows that a bound is necessary: cubic operators of dimension `2 ** 1280` and more would be refused.
* **C105 – The inplace flag of transformers decides only where the result is written** (proved; 9 theorems). `FlagSays` and `TfI.FlagOnly` state what the flag means. `C105_builtin`, `C105_pipeline`, `C105_multi`, and `C105_nested` by induction on the depth of the nesting; `C105_rom` for `encode` and `decode` (it discharges the hypotheses of the theorems of C47 about arguments). Calls in place that raise: `C105_builtin_failed`, `C105_failed_pipeline`, and the witnesses `C105_failed_in_place`, `C105_failed_not_restored`.
* **C106 – The operator accessors of a model and its right-hand side agree, whatever the order of the operators** (proved; 9 theorems). `Model.opOfType`, `PModel.opOfType`, `Accessor`. `C106_first`, `C106_first_parametric` against the specification `FirstOf`; `C106_letters`, `C106_trained`; `C106_equation` (the model equation in terms of the accessors, from the permutation of the operators that the accessors define); `C106_order_rhs`, `C106_order_predict`; `C106_shadowed` is the witness of a model with two linear operators.
* **C107 – The sum of two operators acts as the sum of the operators** (proved; 10 theorems). `Op.add`, `badd` (numpy broadcasting). `C107_sum`, `C107_snapshots`, `C107_jacobian` (from C04 by comparing coefficients), `C107_comm`, `C107_assoc`, `C107_merge`, `C107_refused`, `C107_dimensions`, `C107_stretched`.
* **C108 – The result of training depends neither on the order of the snapshots nor on the order of the operators** (proved; 4 theorems). `Training`, `Training.Done`, `SameResult`. `C108_l2`, `C108_plain`, `C108_plain_l2`, `C108_tikhonov`: from the optimality of training (C62) by strict convexity (`minimisers_agree`: two minimisers agree on all data vectors).
* **C109 – Sparse arrays survive HDF5 files** (partial; 7 theorems). `SpArray`, `saveSparray`, `loadSparray`, `saveTerms`, `loadTerms`. `C109_round_trip`, `C109_affine`, `C109_dense_refused`, `C109_not_saved`, `C109_matrix_class`, `C109_star_differs`, `C109_star_partial`. **Result:** Proved: format, shape and entries survive, and affine operators evaluate to the same entries (C109_round_trip, C109_affine). False of the code: the loaded object belongs to the matrix classes, so that products with * differ for arrays saved as csr_array etc. (C109_star_differs); they agree for the matrix classes (C109_star_partial).
* **C110 – The order of the trajectories does not matter for training a reduced-order model** (proved; 5 theorems). `TrajArgs`, `FRom.processAll`, `FRom.fitAll`, `asData`, `TwoTrainings`, `SameRom`. `C110_each_alone`: the data of several trajectories are those of each alone; `C110_data`; `C110_l2`, `C110_plain`, `C110_tikhonov`: the trained reduced-order models are the same (from C69, C70 and the argument of C108).
* **C111 – The order of the training parameters does not matter for training a parametric model** (proved; 4 theorems). `ParamData`, `PModel.fitOn`, `PModel.Takes`, `PModel.learnVector`, `PModel.DeterminedBy`, `TwoOrders`, `AgreeOn`, `SameModel`. `C111_l2`, `C111_plain`, `C111_tikhonov`: two trainings of a parametric model on the same training parameters in different orders agree (both minimise the same sum of squares; uniqueness from C108). `C111_interpolated`: the same for models of interpolated operators, for any solver (`Interp.Sorts`, `ItpLib.OrderFree`).
* **C112 – Time derivatives may be estimated before or after transforming and compressing the states** (proved; 14 theorems). `RowRule` (linear operations on rows that keep or annihilate constants), `RowWise`, `TfI.Commutes`, `BasI.Commutes`, `Rom.Commutes`. `C112_uniform`, `C112_nonuniform`: the estimators apply one rule to all rows. `C112_affine`, `C112_transformers`, `C112_pipeline`, `C112_multi`, `C112_linear_basis`, `C112_pod`, `C112_multi_basis`: the parts commute with such rules. `C112_training_data`, `C112_same_success`, `C112_fit`, `C112_fit_one`: so the order of estimation and reduction does not matter. `C112_lifting_matters`: with a lifter it does.
* **C113 – The right-hand side determines the operators** (proved; 9 theorems). `SameRhs`, `SameRhsAutonomous`, `Op.IsZero`, `totalDim`; over an infinite field. `C113_rhs_determines`, `C113_rhs_determines_autonomous`: the operators agree up to zero operators. `C113_equal_iff_same_rhs`, `C113_operator_equal_iff`: equality means equal action. `C113_polynomial_determines`: any order. `C113_enough_snapshots`, `C113_too_few_snapshots`: the number of snapshots that determine the operators. `C113_design`: training at such snapshots recovers every model. `C113_distinct_needed`: the classes must be distinct.
* **C114 – Galerkin projections compose** (proved; 10 theorems). `OneStep`, `SolvesGram` (the linear solver is exact where it is used), `IsMat`, `leading`. `C114_unique`: the defining equation determines the projection. `C114_compose`, `C114_compose_biorthogonal`, `C114_model`: projecting twice. `C114_truncate`: nested reduced operators. `C114_identity`, `C114_square`, `C114_back`: changes of coordinates. `C114_sum`: sums. `C114_test_basis_matters`: `X` cannot be replaced by `Wr2` in general.
* **C115 – Transformers accept exactly the arguments that fit, and locs means what Python means** (proved; 13 theorems). `Chosen` (with `SelectsUp`, `SelectsDown`) is Python's selection, stated by sortedness and membership; `C115_selection` says that `locate`, used in C35, is this selection, `C115_chosen_unique` that it is unique, `C115_slice_total` that only step zero selects nothing. `C115_shift`, `C115_scale`, `C115_null`, `C115_shiftscale`: accepted and refused locations with the exception raised. `C115_constructor`, `C115_not_calibrated`, `C115_transform`, `C115_stale_dimension`: options, missing parameters, broadcasting.
* **C116 – The residuals of training are orthogonal to everything the model could have learned** (proved; 15 theorems). `Training.Orthogonal` states the equations with sums over the samples; `C116_plain`, `C116_l2`, `C116_tikhonov` establish them together with the meaning of the operator matrix (`Training.Has`). Consequences: `C116_moments` (single entries), `C116_mean` (constant operator), `C116_energy`, `C116_determined` (converse and uniqueness). For interpolatory models `TrainedAt` gives the training of an ordinary model at one parameter (`C116_interpolatory_l2`, `C116_interpolatory_plain`, `C116_interpolatory_tikhonov`, and in terms of rhs(mu, q, u) `C116_interpolatory_moments`). The example does not fit its data exactly.
* **C117 – Training is linear in the left-hand side** (proved; 4 theorems). `Superposed` relates the three trainings, `SuitsKnown` is the condition on known operators (their contribution is subtracted from each left-hand side), `Combines` the conclusion. `C117_plain`, `C117_l2`, `C117_tikhonov`, and the corollary `C117_time_unit`. Proved from the orthogonality C116 and its converse.
* **C118 – Pipelines and multi-variable transformers are consistent by construction** (proved; 10 theorems). `Agreeing`, `Admits` and `SizedAs` are the specification. `C118_pipeline_made`, `C118_pipeline_dimension`, `C118_multi_made`, `C118_multi_unsized`, `C118_builtin_settable`, `C118_multi_fit_sized`, `C118_multi_fit_unsized`, `C118_multi_locs`. Where it ends: `C118_pipeline_empty`, `C118_prescribed_size_lost`.
* **C119 – Without regularization, training does not depend on the coordinates of the states** (proved; 5 theorems). `Recoordinated`, `Inverts` and `Corresponds` are the specification. `C119_coordinates`, `C119_predict`, `C119_galerkin`, `C119_nothing_known`. Where it ends: `C119_regularization_depends`.
* **C120 – A parametric model can be trained again** (partial; 5 theorems). `PModel.afterFits` runs any sequence of calls, `SameOutcome` compares the results. `C120_explicit_partial` (interpolator classes given), `C120_ascending_partial` (any class, parameters in ascending order or vectors). The property fails otherwise: `C120_default_witness`, `C120_dimension_witness`, `C120_failure_witness`. **Result:** False of the code in general: after the first fit the default interpolator class is remembered and parameters are no longer sorted (C120_default_witness), known affine operators keep the parameter dimension of the first fit (C120_dimension_witness), and a failing fit can leave an operator with entries that cannot be evaluated (C120_failure_witness). Proved for any history when all parameter values have the same dimension and either the interpolator classes are given (C120_explicit_partial) or the parameters of the last call ascend (C120_ascending_partial); assumes known interpolated operators have their interpolator.
* **C121 – Galerkin projection of a parametric model commutes with evaluation at a parameter** (proved; 5 theorems). `ItpLib.LinearAt` states linearity of the interpolation in the values. `C121_commutes` (equality of the two models), `C121_rhs` (right-hand sides), `C121_interpolated` (models with interpolated operators only).
* **C122 – A POD basis made from a singular value decomposition keeps the decomposition** (partial; 3 theorems). `svdEntry` is the specification of the matrix. `C122_pairing_iff` says exactly when the pairing is kept (decreasing singular values), `C122_recovers_partial` that the matrix is recovered then, `C122_unsorted` that it is not kept otherwise. **Result:** The property is false of the code for singular values that are not in decreasing order (C122_unsorted); proved for decreasing singular values, with an exact characterisation (C122_pairing_iff).
* **C123 – Timed blocks write each message to each log file once and to the screen only if asked** (partial; 9 theorems). `LProg.records` is the specification: the messages of a program, without logger, handlers and buffers. `C123_log` and `C123_attached_once` say what the files contain, `C123_buffering` that `rebuffer` does not matter, `C123_quiet_partial` and `C123_stderr_partial` when nothing is printed. `C123_quiet_false`, `C123_stderr`, `C123_switch_on`, `C123_switch_off` are the negations. **Result:** The statements about the log files and about a constant value of rebuffer are proved without restrictions; silence under verbose = False is false of the code (C123_quiet_false, C123_stderr), as is the independence from rebuffer if it is changed inside a block (C123_switch_on, C123_switch_off).
* **C124 – The variables of multi-variable bases and transformers and the steps of a pipeline are independent** (partial; 13 theorems). Basis objects in a store (Model/MultiShared); the specification is the model of bases as values. `C124_independent` and `C124_outcomes` are the refinement for different objects, by induction over sequences of calls, `C124_pipeline` that for pipelines, `C124_multi_make` and `C124_multi_fit` those for `TransformerMulti` (Model/TransformShared); `C124_names_iff` and `C124_default_names` say when names identify variables; `C124_shared_fit`, `C124_shared_names`, `C124_reused_names`, `C124_pipeline_shared`, `C124_pipeline_inconsistent` and `C124_multi_shared` are the negations. **Result:** Proved for different objects, with arbitrary sequences of calls for other objects in between (C124_independent, C124_outcomes, C124_pipeline, C124_multi_make, C124_multi_fit), and an exact characterisation for names (C124_names_iff); the property is false of the code if an object occurs twice or keeps a default name from elsewhere (C124_shared_fit, C124_shared_names, C124_reused_names, C124_pipeline_shared, C124_pipeline_inconsistent, C124_multi_shared).
* **C125 – A Bayesian reduced-order model selects a posterior that was tried out and that fit() reproduces** (proved; 10 theorems). The Bayesian reduced-order model on top of the model of `ROM` (Model/BayesRom). `C125_constructor` and `C125_fit` describe construction and training; `C125_discrete` and `C125_continuous` are the refinement of the selection to `fit`, with the relations `Survives` and `Reproduces` (sequences of draws) as specification of what was tried out.
* **C126 – Without regularization, complete polynomial models do not depend on the reference state** (proved; 5 theorems). `Moved`, `Complete` and `Follows` are the specification. `C126_centering`, `C126_residuals`, `C126_predict`, `C126_nothing_known`. Where it ends: `C126_incomplete_witness`.
* **C127 – A parametric model with nothing known accepts exactly the training data of consistent shapes** (proved; 4 theorems). `PFitCall.Shaped` is the specification. `C127_accepts`, `C127_rejected`, `C127_interpolated_rejected`, `C127_dimensions`.
* **C128 – Complete models trained without regularization do not depend on affine coordinates** (proved; 3 theorems). `Affinely`, `Absorbs` and `FollowsAffinely` are the specification; this contains C119 (c = d = 0) and C126 (T = I). `C128_affine`, `C128_predict`, `C128_nothing_known`.
* **C129 – Predictions of reduced-order models do not depend on the reduced coordinates** (proved; 6 theorems). `EncodesAffinely`, `DecodesAffinely`, `RotatedBasis` are the specification. `C129_predict`, `C129_rotated`, `C129_rotated_predict`; without a basis, transformers that shift and scale (`ActsOnRows`): `C129_scaled`, `C129_scaled_predict`, `C129_shiftscale`.
* **C130 – Without regularization, training does not depend on the coordinates of the inputs** (proved; 3 theorems). `InputsChanged`, `InputComplete` and `RespondsAlike` are the specification; `C130_inputs`, `C130_predict`, `C130_nothing_known`.
* **C131 – With one regularizer, training does not depend on the signs and the order of the reduced coordinates** (proved; 5 theorems). `OrthogonalFor`, `SignedPerm`, `Affinely` and `FollowsAffinely` are the specification; `C131_orthogonal`, `C131_predict`, `C131_rom`, `C131_bases`. That rotations do not act orthogonally on the non-redundant products, so that the restriction is needed, is `C131_rotation_products`.
* **C132 – Repeating the training data scales the regularization and changes nothing else** (proved; 13 theorems). `Repeats` and `SameTrained` are the specification; `C132_l2`, `C132_plain`, `C132_tikhonov`, `C132_l2_tikhonov`; for reduced-order models `RepeatedTrainings` and `SameRepeated`, `C132_rom_l2`, `C132_rom_plain`; for interpolatory models `C132_interpolatory_l2`, `C132_interpolatory_plain`; for parametric models `ParamRepeats`, `C132_parametric_l2`, `C132_parametric_plain`, `C132_parametric_tikhonov` (agreement at the samples), `C132_parametric_l2_operators` (nonzero regularizer) and `C132_parametric_plain_operators` (data that determine the operators): the operators are equal.
* **C133 – An interpolated operator stays consistent whatever is called on it** (partial; 9 theorems). `Interp.Sound` and `Interp.Current` are the specification; `C133_any_calls`, `C133_successful_calls`, `C133_set_interpolator`, `C133_early_or_late`, `C133_evaluate`, `C133_load`; the last sentence is false: `C133_stale`, `C133_stale_witness`, and `C133_cleared` for the parameter dimension. **Result:** The last sentence is false of the code: entries the interpolation library refuses are stored while the old interpolator stays (C133_stale, C133_stale_witness). Everything else is proved for all call sequences; C133_cleared shows what clearing loses.
* **C134 – An affine operator stays consistent whatever is called on it** (partial; 11 theorems). `Affine.SameMake`, `Affine.Counted` and `NoClear` are the specification; `C134_any_calls`, `C134_constructed`, `C134_dimension_stays`, `C134_set_entries`, `C134_set_block`, `C134_set_dimension`, `C134_cleared_dimension`; the last sentence is false: `C134_raising_partial`, `C134_first_evaluation`, `C134_first_evaluation_witness`. **Result:** The last sentence is false of the code: an evaluation that raises may leave a wrong parameter dimension behind (C134_first_evaluation, C134_first_evaluation_witness); C134_raising_partial proves it for all other cases. The rest is proved for all call sequences.

## Behaviour found while modelling

Proved (with a theorem that states the negation or the exact behaviour): see the notes above for C10, C11, C16, C19, C20, C26, C28, C33, C35, C39–C41, C43–C47, C50, C52–C55, C61, C66–C68. Read in the source but not turned into theorems:

* C134: an affine operator of unknown parameter dimension takes it from the first parameter it is evaluated at even if that evaluation raises; afterwards parameters of the right dimension are refused (`C134_first_evaluation_witness`). Clearing an operator made with an integer number of coefficients loses the parameter dimension the constructor had set (`C134_cleared_dimension`).
* C133: `set_entries` of an interpolated operator stores the entries before the interpolator is built; if the interpolation library refuses them the call raises but the operator keeps the new entries with the old interpolator (`C133_stale_witness`). Clearing forgets the parameter dimension but not the training parameters, so setting entries again gives an operator whose evaluation always raises `RuntimeError` (`C133_cleared`).
* A model with a linear operator but no constant one depends on the reference state of the snapshots even if the data determine it (`C126_incomplete_witness`).
* After `fit_regselect_*` of a `BayesianROM` the operators of `rom.model` are not those of the posterior: they are the last draw for the candidate that was evaluated last, and depend on candidates that were not selected, whereas after `fit` they are the least-squares solution (`C125_leftover_witness`). `rom.predict` draws new operators and is not affected; `rom.model.predict`, saving the model, and reading its operators are.
* `BasisMulti`, `TransformerMulti` and `TransformerPipeline` store the objects they are given. An object given twice is trained twice, and both variables (steps) use the result of the last training: `BasisMulti([pod, pod])` compresses the first variable with the basis of the second (`C124_shared_fit`), and for a pipeline with one centering transformer twice `fit_transform(states)` and `transform(states)` differ (`C124_pipeline_inconsistent`); `TransformerMulti([t, t])` does not even invert its own `fit_transform` (`C124_multi_shared`). Default names stay with the objects, so that in `BasisMulti([multi[1], multi[0]])` the name `variable 0` refers to the second variable (`C124_reused_names`).
* `TimedBlock`: with `verbose = False` exceptions are still printed (`C123_quiet_false`); a block that ends before the first `add_logfile` makes `logging` install a handler for the standard error stream, so that after `add_logfile` all messages appear on the screen as well, also with `verbose = False` (`C123_stderr`); switching `rebuffer` on inside a block makes the block raise `AttributeError` (`C123_switch_on`), switching it off leaves `sys.stdout` replaced and later output is lost (`C123_switch_off`). The documentation of the class calls `setup_logfile`, which does not exist.
* `PODBasis._store_svd` sorts the singular values but not the singular vectors. `from_svd` with singular values that are not decreasing pairs them with the wrong vectors; for every tolerance there are decompositions for which the basis selected by `residual_energy` reports less than the tolerance and loses more than the share `1 - tol` of the energy (`C122_unsorted`).
* Projecting an affine operator passes on the coefficient function but not the parameter dimension (`copy` restores it, `galerkin` does not). The projection of a model without interpolated operators has `parameter_dimension = None` (`C121_forgets_dimension`) and accepts parameter values that the model itself refuses (`C121_accepts_other_dimension`).
* `_InterpOperator._clear` does not return to the state after construction: the default interpolator class chosen by the first `fit` is kept, and a later `fit` no longer sorts the parameters (`C120_default_witness`). A known affine operator keeps the parameter dimension of the first `fit` (`C120_dimension_witness`). A `fit` that fails to build an interpolator leaves an operator with entries that cannot be evaluated (`C120_failure_witness`).
* With `L2Solver` the learned model depends on the units of the states, as is to be expected (`C119_regularization_depends`): the regularization is not invariant under changes of coordinates.
* `TransformerMulti.fit_transform` replaces prescribed sizes: if one of the variable sizes is unknown, all variables get the equal share, also those whose transformers already had a state dimension (`C118_prescribed_size_lost`). `TransformerPipeline([])` is accepted, but all its methods raise IndexError (`C118_pipeline_empty`). The constructor also refuses tuples with the message that it wants a list or tuple.
* `load_sparray` builds a `coo_matrix`, so what it returns belongs to the matrix classes (`csr_matrix`) also if a `csr_array` was saved, although the documentation promises a sparse array: `A * A` is then the matrix product instead of the product entry by entry (`C109_star_differs`).
* `a + b` does not compare the dimensions: with a one-dimensional operator on one side numpy stretches its coefficient to all entries of the other one, e.g. `[[10]] + [[1, 2], [3, 4]]` is the linear operator `[[11, 12], [13, 14]]`, and an input operator for one input can be added to one for three (`C107_stretched` and the examples beside it).
* A model may have a known and an inferred operator of the same class; `A_` etc. then return the first one only, so the inferred entries are out of reach of the accessors (`C106_shadowed`).
* A `TransformerPipeline` or `TransformerMulti` called with `inplace=True` that raises half-way leaves its argument transformed in part (`C105_failed_in_place`: an untrained member after a trained one).
* `evaluate(parameter)` puts the nonparametric operators of the parametric model themselves into the evaluated model. If such an operator is to be inferred, a later `fit()` of the parametric model silently changes models evaluated earlier, and a refused `fit()` makes them raise AttributeError (C103_witness, C103_refused_fit).
* `untrained == trained` is True and `trained == untrained` False for ShiftScaleTransformers with the same settings and state dimension (C102_untrained_asymmetric); one with `scale_` but without `shift_` differs from itself (C102_not_reflexive). Interpolated operators and the weights of bases are compared with `np.allclose`: the comparison is neither symmetric nor transitive and equal objects may act differently (C102_interp_witness, C102_basis_witness).
* The check for NaN and infinite entries does not look into sparse matrices: `LinearOperator` (and the input classes) accept sparse entries with NaN (C101_sparse_not_screened).
* A `PODBasis` with weights that was constructed for the method of snapshots raises `AttributeError` in every `fit()` after its `svdsolver` has been set to another solver (C100_change_solver_fails). The constructor argument `svdsolver_options` of the documentation does not exist: the dictionary itself is passed on as an option of the solver (C100_options_dictionary). `pod_basis(..., svdsolver='randomized')` asks for the smaller dimension of the states, not for `r` singular values as documented (C100_randomized_components).
* `opinf.pre.shift()` accepts a vector of another size than a snapshot if one of the two sizes is one, and then returns shifted states of another shape (C99_shift_sizes, C99_shift_broadcasts). For decreasing `scale_to`, `opinf.pre.scale()` returns bounds that are the maximum and minimum of the scaled states in this order, against its documentation (C99_scale_decreasing).
* `L2Solver.regcond()` and `L2DecoupledSolver.regcond()` are too small whenever there are fewer data points than unknowns and the data matrix has full rank: the directions in which only the regularizer acts are ignored (C98). `TotalLeastSquaresSolver`: after a refused first fit, `str(solver)` and `augcond` raise `AttributeError`; after a refused later fit, `augcond` belongs to the earlier data (C98). `TruncatedSVDSolver(num_svdmodes=-d)` is accepted, retains no mode, and `tcond()` then reports the value for all modes (C98).
* `DerivativeEstimatorTemplate.verify()` does not restore the time domain if `estimate()` raises on a test problem, and does not look at the derivatives returned together with inputs; the report for exact backward or central schemes of order four and more shows positive errors for `t⁴ - t³/3` (C97).
* `verify()` of any trained solver deletes an existing file `_solververification.h5` in the working directory, even if `solve()` fails, and overwrites it before (C96).
* `verify(testparam)` of an affine operator built from coefficient functions raises ValueError ("testparam.shape != (parameter_dimension,)") for every test parameter until the operator has been evaluated once, because the parameter dimension is only learnt in `evaluate()` (C95).
* `verify()` of an operator deletes an existing file `_operatorverification.h5`: `save()` refuses to overwrite it and the `finally` clause removes it. A `jacobian()` that returns the number 0 (the default) is accepted whatever `apply()` is, `galerkin()` is not looked at for one state variable, correct quadratic operators are refused if the drawn state is tiny, and `PolynomialOperator.verify()` always raises VerificationError since its `operator_dimension` is not static (C94).
* `verify()` of a lifting map compares all lifted variables with one relative norm: for every tolerance there are states changing in time for which the quadratic map with the wrong derivative `3 q d` is accepted (C93). `verify()` of one-dimensional states raises IndexError rather than an error of the package.
* `ddt_uniform()` (hence `ddt()`) fills `np.empty_like(states)`: for states of an integer type all estimates are truncated to integers, e.g. `ddt_uniform(np.arange(10)[None, :], 2.0)` is zero. `ddt(states, 1)` raises TypeError although `ddt(states, dt=1)` is accepted (C92).
* `projection_error()` of a basis with weights measures the error in the unweighted norm although `project()` is the projection in the weighted one: the error can be larger than that of zero coordinates, i.e. the relative error larger than 1, and it is not the root of `residual_energy` (C91).
* `verify()` of a basis compares `project(project(Q))` with `project(Q)` by `np.allclose`, whose absolute tolerance accepts every basis with small entries: a `LinearBasis` with the single entry 1e-4 is accepted although projecting twice multiplies the states by 1e-8 (C90).
* `verify()` of a calibrated `ShiftScaleTransformer(byrow=True, scaling=None)` always raises `TypeError`, and `verify()` of a pipeline that ends in a `TransformerMulti` with two or more variables always raises `ValueError` (the drawn locations refer to the joint state, `TransformerMulti` expects locations within one variable). A transformer that overwrites its argument although `inplace=False` and returns a copy is accepted (C89).
* Regularization selection of parametric models never succeeds if an operator is interpolated with the default class and the scalar training parameters are not increasing: the first refit stores `CubicSpline` as the class, after which parameters are no longer sorted, and every later refit raises `ValueError` (C88). For interpolatory models the selected regularization is only given to the solvers of the submodels, so that a later `fit` uses the old one (C88).
* `ParametricROM.fit` silently drops data: surplus left-hand sides if there is a lifter and the model is time-continuous, surplus inputs for fully discrete models, and surplus inputs or surplus trajectories with estimated time derivatives and inputs (C87).
* `load()` of a model that has been saved before training has `PlainSolver` instead of its (regularized) solver, so that training it gives other operators (`C84_solver_lost`, `C84_solver_witness`). If the solver cannot be written, `save()` raises although the file is complete as far as `load()` is concerned (`C84_save_load`).
* A model interpolated from trained models at scalar parameter values that are not in increasing order works with the default interpolator, but `copy()` and `load()` raise `ValueError` (`C83_unsorted`).
* A copy of, or a file with, a trained interpolatory model cannot be trained again: `fit()` does nothing and `refit()` raises (`C83_not_refittable`); `load()` also forgets the interpolator class of the model (`C83_load`).
* `InterpDerivativeEstimator.mask` refuses one-dimensional arrays if there is a new time domain although shape `(..., k)` is documented and `estimate` accepts one-dimensional inputs (`C80_mask_one_dimensional`).
* `PolynomialOperator.copy/__add__/load` call constructors with missing arguments; its docstring numbers the orders differently.
* `OpInfOperator.save` with sparse entries fails; `ConstantOperator` with one state truncates to the dtype of the entries.
* A model built with `None` raises `TypeError` before the intended message (`len(ops) == 0 or ops is None`).
* `_InterpModel.load` drops the interpolator class of the model; its refit re-interpolates known operators at the parameters of the fit.
* A zero regularization with a zero singular value gives NaN in `L2Solver`.
* `TotalLeastSquaresSolver`: the message says `k > d + r` while the check is `k < d + r`; the error blocks are stacked in reversed order (only their norm is used).
* `TruncatedSVDSolver.save` fails before `fit`; `TikhonovDecoupledSolver` ignores its options for method `lstsq`; `lstsq_size` does not know `N`.
* `None` and the string "NULL" collide in solver files.
* Pipelines and multi-variable transformers nested in one another cannot be reloaded; `ShiftTransformer.transform_ddts` does not check the shape.
* `PODBasis.from_svd` sorts the singular values but not the vectors; `LinearBasis.__eq__` is not symmetric.
* A grid candidate 0 makes the optimiser start from `log10(0)`.
* The default regularizer factory with `TikhonovSolver` always fails for a one-column data matrix.
* `method_of_snapshots` drops the smallest eigenvalue even if it is positive (`max(minthresh, abs(np.min(eigvals)))`); a single snapshot or orthogonal snapshots of equal length make `PODBasis.fit` raise `IndexError` (C75).

## Axioms per theorem

**no axioms** (8): C100_set_options, C109_dense_refused, C118_pipeline_empty, C16_empty_trajectory_misaligned, C47_decode_argument, C53_elapsed_witness, C53_no_alarm_left, C53_reraises

**`propext`** (43): C100_refused_setting, C100_solver_labels, C101_construct, C101_not_an_array, C103_not_trained, C106_first, C106_first_parametric, C106_order_rhs, C107_refused, C109_matrix_class, C115_constructor, C118_multi_unsized, C123_quiet_false, C123_switch_on, C133_any_calls, C133_load, C28_l2_assignment, C40_multi_wrong_classes, C42_weights_refused, C45_linear_untrained, C46_fit_indivisible, C46_half_known_type_error, C46_load_wrong_classes, C47_encode_arguments, C47_locs_ignored, C53_nested_witness, C53_unlimited, C56_lstsq_size_rejects, C58_learned_dimension, C61_rejected_assignment_partial, C63_discrete_fit_explicit, C65_draw_none, C68_refit_first, C69_lists, C69_missing, C77_continuous_errors, C80_mask_one_dimensional, C80_refused, C81_verify_error, C81_verify_ok, C82_tikhonov_method, C84_load_errors, C86_missing

**`Quot.sound`, `propext`** (252): C03_kron_state_length, C04_stateinput_jacobian_error, C06_galerkin_errors, C07_poly_state_length, C09_construct_refused, C09_identity, C09_refusals, C100_change_solver_fails, C100_change_solver_partial, C100_fit_keeps, C100_function_is_class, C101_history, C101_nonfinite, C101_sparse_as_dense, C101_sparse_not_screened, C101_vectors, C102_basis_weights_raise, C102_equal_transformers_act_alike, C102_multi, C102_not_reflexive, C102_trained_equivalence, C102_untrained_asymmetric, C103_evaluate, C105_builtin, C105_builtin_failed, C105_failed_pipeline, C105_pipeline, C107_comm, C107_stored, C109_not_saved, C10_no_coefficients, C112_fit, C112_fit_one, C112_pipeline, C112_same_success, C112_training_data, C115_not_calibrated, C118_builtin_settable, C118_multi_fit_sized, C118_multi_fit_unsized, C118_pipeline_dimension, C123_buffering, C123_stderr, C123_stderr_partial, C123_switch_off, C124_multi_fit, C124_names_iff, C124_pipeline, C124_pipeline_shared, C124_shared_fit, C124_shared_names, C125_constructor, C125_fit, C12_from_operators, C133_cleared, C133_evaluate, C133_set_interpolator, C133_stale, C133_successful_calls, C134_any_calls, C134_cleared_dimension, C134_cleared_forgets, C134_constructed, C134_dimension_stays, C134_first_evaluation, C134_raising_partial, C134_set_block, C134_set_entries, C17_equality_equivalence, C17_equality_iff, C21_fit_ignores_inputs, C21_predict_ignores_inputs, C21_predict_requires_inputs, C21_rhs_ignores_inputs, C21_rhs_requires_input, C22_l2_rejects, C23_l2_rows_decoupled, C24_tikhonov_lstsq_minimises, C26_set_modes, C27_failed_fit, C27_fits, C27_history, C27_misshaped, C27_underdetermined, C28_l2_decoupled_assignment, C28_l2_decoupled_reset, C28_l2_failed_svd_leaves_stale_solution, C28_l2_reset, C28_tikhonov_decoupled_reset, C28_tikhonov_fit_restores, C28_tikhonov_reset, C29_l2_regresidual, C29_l2dec_regresidual, C29_tikdec_regresidual, C29_tikdec_regresidual_rejects_vector, C29_tikhonov_regresidual, C31_scheme_names, C32_misaligned_inputs_rejected, C34_errors, C35_pipeline_invertible, C35_pipeline_locs, C37_pipeline_differentiates, C38_null, C38_pipeline, C39_unknown_sizes_rejected, C39_wrong_length_rejected, C40_scale_history, C41_orders, C41_polynomial_finite, C41_quadratic_entries, C42_errors, C42_fit_compress, C43_set_dimension, C43_set_dimension_criterion, C43_svdval_function, C44_call, C44_fit_forgets, C44_history, C44_max_vectors, C44_setter_all_stored, C45_agrees_after_fit, C45_agrees_after_set_dimension, C45_max_vectors_num, C45_max_vectors_partial, C45_no_right_vectors, C46_compress, C46_decompress, C46_fit, C46_fit_equal_sizes, C46_fit_fails, C46_no_ambiguity, C46_pod_parts, C46_project, C46_wrong_length, C47_decode, C47_decode_encode, C47_decode_encode_in_span, C47_decode_locs_partial, C47_encode, C47_encode_ddts, C47_encode_decode, C47_encode_defined, C47_fit_encode, C47_lhs_continuous, C47_lhs_discrete, C47_predict, C47_predict_exact, C47_project, C47_project_idempotent_partial, C48_candidates, C48_exception, C49_continuous_stable, C49_mean, C49_prediction_raises, C51_load_errors, C53_elapsed_partial, C53_limit, C53_limit_enforced, C53_nested_limit_lost, C53_timeout_iff, C54_Lp_one_dimensional, C54_Lp_single_time_witness, C54_lp_normalized, C54_refused, C57_operator_dimensions, C57_operator_unset, C58_after_failure, C58_any_calls, C58_calls_independent, C58_calls_known, C58_discrete_nextstates, C58_evaluated_dimensions, C58_methods, C65_candidate_raises, C65_fit, C65_fit_no_posterior, C66_load_class, C69_discrete, C69_discrete_columns, C69_one_trajectory, C69_single, C69_stacked_columns, C70_discrete_aligned, C70_discrete_samples, C71_estimator_checks_partial, C71_inputs_shifted, C71_only_totals_matter, C71_trajectories_dropped, C72_continuous_arguments, C72_input_values, C72_refused, C73_nan_accepted, C74_refused, C77_discrete_errors, C78_jacobian_untrained, C79_errors, C79_no_inputs, C80_create_iff, C80_estimate_iff, C80_exact, C80_mask_states, C80_new_times_subset, C80_same_times, C82_copy, C82_fit_savable, C82_same_solution, C83_set_interpolator, C86_discrete, C86_initial_state_refused, C87_surplus_inputs, C87_surplus_inputs_discrete, C87_surplus_lhs, C87_surplus_states, C88_continuous_arguments, C88_discrete_refused, C89_builtin_careful, C89_multi_refused, C89_untrained, C90_accepted, C90_multi_refused, C90_untrained, C91_error, C91_value, C92_vector_refused, C93_vector_refused, C94_entries_iff, C94_existing_file_deleted, C94_files, C94_no_entries, C94_not_static_refused, C94_steps, C95_no_state_dimension, C96_existing_file_deleted, C96_files, C96_untrained, C97_accepted_iff, C97_failed_state, C97_nonuniform_refused, C97_reported, C97_shapes_iff, C98_no_singular_values, C98_refused_fit, C98_tcond_no_modes, C98_tikhonov, C98_tikhonov_decoupled, C98_untrained, C99_scale_learned_refused, C99_shift, C99_shift_back, C99_shift_column, C99_shift_refused, C99_shift_sizes

**`Classical.choice`, `Quot.sound`, `propext`** (735): BayesEx.C55_witness, BayesRomEx.C125_leftover_witness, BayesSelEx.C65_witness, C01_compressed_entries_action, C01_full_entries_action, C01_other_widths_rejected, C02_compress_expand, C02_errors, C02_expand_compress, C03_apply_eq_entries_datablock, C03_datablock_shape, C03_kron_datablock_refused, C04_jacobian_is_derivative, C04_kron_jacobian_errors, C04_kron_jacobian_is_derivative, C05_inplace_mutation_goes_stale, C05_jacobian_cache_never_stale, C06_galerkin_commutes, C07_agrees_with_dedicated, C07_monomials_exactly_once, C08_operator_dimension, C08_polynomial_dimension, C09_apply, C09_block, C09_callable, C09_construct_entries, C09_functions, C09_galerkin, C100_change_solver_witness, C100_counts, C100_options, C100_options_dictionary, C100_pod_basis, C100_randomized_components, C100_solver_names, C101_accepts_iff, C101_always_usable, C101_compressed_kept, C101_matrix_action, C101_refused, C101_sparse_width, C101_tensor_action, C101_usable, C102_basis_act_alike_partial, C102_basis_eq_iff, C102_basis_reflexive, C102_basis_witness, C102_interp_act_alike_partial, C102_interp_eq_iff, C102_interp_reflexive, C102_interp_witness, C103_call, C103_copy_independent, C103_evaluated_later, C103_fit, C103_independent_partial, C103_refit, C103_refused_fit, C103_witness, C104_compress, C104_expand, C104_found, C104_limit, C104_never_wrong, C104_round_trip, C105_failed_in_place, C105_failed_not_restored, C105_multi, C105_nested, C105_rom, C106_equation, C106_letters, C106_order_jacobian, C106_order_predict, C106_shadowed, C106_trained, C107_assoc, C107_dimensions, C107_jacobian, C107_merge, C107_snapshots, C107_stretched, C107_sum, C108_l2, C108_plain, C108_plain_l2, C108_tikhonov, C109_affine, C109_round_trip, C109_star_differs, C109_star_partial, C10_block_width, C10_right_length_partial, C10_wrong_length_accepted, C10_wrong_length_witness, C110_data, C110_each_alone, C110_l2, C110_plain, C110_tikhonov, C111_interpolated, C111_l2, C111_plain, C111_tikhonov, C112_affine, C112_lifting_matters, C112_linear_basis, C112_multi, C112_multi_basis, C112_nonuniform, C112_pod, C112_transformers, C112_uniform, C113_design, C113_distinct_needed, C113_enough_snapshots, C113_equal_iff_same_rhs, C113_operator_equal_iff, C113_polynomial_determines, C113_rhs_determines, C113_rhs_determines_autonomous, C113_too_few_snapshots, C114_back, C114_compose, C114_compose_biorthogonal, C114_identity, C114_model, C114_square, C114_sum, C114_test_basis_matters, C114_truncate, C114_unique, C115_chosen_unique, C115_null, C115_rows_come_back, C115_scale, C115_selection, C115_shift, C115_shiftscale, C115_slice_all, C115_slice_total, C115_stale_dimension, C115_transform, C116_determined, C116_energy, C116_interpolatory_l2, C116_interpolatory_moments, C116_interpolatory_plain, C116_interpolatory_tikhonov, C116_l2, C116_mean, C116_moments, C116_parametric_l2, C116_parametric_moments, C116_parametric_plain, C116_parametric_tikhonov, C116_plain, C116_tikhonov, C117_l2, C117_plain, C117_tikhonov, C117_time_unit, C118_multi_locs, C118_multi_made, C118_pipeline_made, C118_prescribed_size_lost, C119_coordinates, C119_galerkin, C119_nothing_known, C119_predict, C119_regularization_depends, C11_default_class, C11_galerkin_partial, C11_survives_partial, C11_unsorted_constructed, C11_unsorted_fails, C11_witness, C120_ascending_partial, C120_default_witness, C120_dimension_witness, C120_explicit_partial, C120_failure_witness, C121_accepts_other_dimension, C121_commutes, C121_forgets_dimension, C121_interpolated, C121_rhs, C122_pairing_iff, C122_recovers_partial, C122_unsorted, C123_attached_once, C123_log, C123_quiet_partial, C124_default_names, C124_independent, C124_multi_make, C124_multi_shared, C124_outcomes, C124_pipeline_inconsistent, C124_reused_names, C125_continuous, C125_continuous_cases, C125_continuous_trajectory, C125_discrete, C125_discrete_cases, C125_discrete_stable, C125_discrete_trajectory, C126_centering, C126_incomplete_witness, C126_nothing_known, C126_predict, C126_residuals, C127_accepts, C127_dimensions, C127_interpolated_rejected, C127_rejected, C128_affine, C128_nothing_known, C128_predict, C129_predict, C129_rotated, C129_rotated_predict, C129_scaled, C129_scaled_predict, C129_shiftscale, C12_block, C130_inputs, C130_nothing_known, C130_predict, C131_bases, C131_orthogonal, C131_predict, C131_rom, C131_rotation_products, C132_interpolatory_l2, C132_interpolatory_plain, C132_l2, C132_l2_tikhonov, C132_parametric_l2, C132_parametric_l2_operators, C132_parametric_plain, C132_parametric_plain_operators, C132_parametric_tikhonov, C132_plain, C132_rom_l2, C132_rom_plain, C132_tikhonov, C133_early_or_late, C133_stale_witness, C134_first_evaluation_witness, C134_set_dimension, C13_fit_residual, C14_extract_roundtrip, C14_fit_operator_matrix, C15_predict_iff, C15_predict_prefix, C15_predict_restart, C16_stack_inputs, C16_stack_pairs, C18_galerkin_commutes, C19_decouples, C19_exact_partial, C19_residual_wrong, C19_same_twice, C19_twice, C19_witness, C20_copy_cannot_be_refitted, C20_copy_same_model, C20_fit_trains, C20_load_cannot_be_refitted, C20_load_same_model, C21_fit_requires_inputs, C22_l2_minimises, C22_l2_minimises_frobenius, C23_diagonal_regularizers, C23_tikhonov_rows_decoupled, C24_diagonal_regularizer, C24_matrix_regularizer, C24_tikhonov_methods_agree, C24_tikhonov_normal_minimises, C25_assigned, C25_operator_regularizer, C25_penalty_per_operator, C26_excess_negative_modes, C26_excess_negative_witness, C26_refit, C26_second_fit_loses_modes, C26_second_fit_regains_modes, C26_truncated_solution_partial, C27_stale, C27_total_least_squares, C28_l2_consistent, C28_l2dec_consistent, C28_l2dec_rejected_regularizer_is_used, C28_tikdec_consistent_partial, C28_tikdec_stale, C28_tikhonov_consistent_partial, C28_tikhonov_stale, C29_l2_solution_optimal, C29_residual, C30_forms_positive, C30_l2_posterior, C30_l2dec_posterior, C30_tikdec_posterior, C30_tikhonov_posterior, C31_constructor, C31_exact_on_polynomials, C31_made_exact, C31_too_few_snapshots, C32_estimate_aligned, C32_made_inputs, C33_verify_aligned_iff, C33_verify_misaligned_witness, C34_nonuniform_exact_on_quadratics, C35_locs_unscaled_byrow_raises, C35_multi_invertible, C35_multi_locs, C35_null_invertible, C35_scale_invertible, C35_shift_invertible, C35_shiftscale_invertible, C35_shiftscale_locs_partial, C36_centering, C36_centering_maxabs, C36_maxabs, C36_maxabssym, C36_maxnorm, C36_minmax, C36_minmax_applies_iff_nonconstant, C36_minmaxsym, C36_standard, C37_multi_differentiates, C37_null_differentiates, C37_scale_differentiates, C37_shift_differentiates, C37_shiftscale_differentiates, C38_basic, C38_multi, C38_refit_forgets_history, C38_scale, C38_shift, C38_shiftscale, C39_basis_get_var, C39_basis_split, C39_get_var, C39_get_var_minus_one_empty, C39_get_var_name, C39_split_partition, C40_basic, C40_loaded_not_equal, C40_multi, C40_multi_named, C40_multi_shiftscale_equal, C40_null, C40_pipeline_name_lost, C40_pipeline_partial, C40_pipeline_wrong_classes, C40_scale_one_entry_array, C40_scale_partial, C40_scale_without_shift, C40_shift, C40_shiftscale, C40_shiftscale_eq, C40_shiftscale_history, C41_polynomial_ddts, C41_polynomial_ddts_defined, C41_polynomial_ddts_zero_order, C41_polynomial_entries, C41_polynomial_unlift, C41_polynomial_unlift_abs, C41_polynomial_unlift_iff_nonneg, C41_polynomial_zero_orders, C41_quadratic_ddts, C41_quadratic_is_polynomial, C41_quadratic_unlift, C41_single_order_integer, C41_single_order_truncated, C42_compress_decompress, C42_constructor, C42_decompress_locs, C42_make_compress, C42_make_iff, C42_project_closest, C42_project_idempotent, C42_weights_psd, C43_constructor, C43_cumulative, C43_cumulative_function, C43_fit, C43_from_svd, C43_projection_error, C43_residual_function, C43_residual_monotone, C43_residual_no_tie, C43_residual_not_least, C43_residual_partial, C43_residual_tie_witness, C43_svdval_threshold, C44_negative_dimension_witness, C44_setter_before_fit, C44_setter_value, C45_from_svd_unsavable_witness, C45_linear_save_load, C45_max_vectors_increases_witness, C45_normalized, C45_pod_load, C45_pod_save_load_partial, C45_setter_lost_witness, C45_untrained, C46_ambiguity_witness, C46_compress_decompress, C46_constructor, C46_constructor_names, C46_decompress_locs, C46_linear_section, C46_locs_refused, C46_save_load, C47_linear_basis, C47_locs_lifter_witness, C47_locs_no_basis_witness, C47_polynomial_lifter, C47_project_lifter_witness, C47_quadratic_lifter, C48_all_unstable, C48_bounds, C48_grid_only, C48_never_worse, C48_sorted, C49_as_fit, C49_discrete_stable, C49_no_stable_candidate, C49_selected, C49_test_case, C49_training_data_stable, C50_l2_partial, C50_same_outcome, C50_second_call_witness, C50_tikhonov_raises, C50_tikhonov_reset_partial, C51_existing_file_kept, C51_history_keeps_files, C51_save_changes_one_file, C51_warns_iff_ending, C52_contents, C52_failed_save_destroys, C52_failed_save_destroys_witness, C52_load_last_saved, C54_Lp_inf, C54_Lp_inf_value, C54_Lp_partial, C54_Lp_value, C54_frobenius, C54_frobenius_value, C54_lp, C54_lp_value, C54_projection, C54_real_exponents, C54_real_sqrt, C55_constructor, C55_draw, C55_eq_iff, C55_loaded_draw_raises, C55_loaded_draw_wrong_shape, C55_round_trip_partial, C56_lstsq_size, C56_lstsq_size_affine, C57_construct_errors, C57_construct_iff, C57_construct_reports, C57_parametric_accepts, C57_parametric_reports, C58_after_evaluation, C58_calls_dimension_witness, C58_discrete, C58_evaluated_again, C58_fit, C58_fit_residual, C58_fit_usable, C58_rhs, C59_failed_fit_clears, C60_fit_forgets_history, C60_l2_fit_forgets_history, C60_tikhonov_fit_forgets_history, C61_rejected_assignment_changes_model, C62_l2_fit_is_optimal, C62_plain_fit_is_optimal, C62_tikhonov_fit_is_optimal, C63_discrete_fit_residual, C64_discrete_reproduces, C65_draw, C65_error, C65_forgets, C65_mean, C65_selected, C65_solvers, C66_copy, C66_integer_coefficients_fail, C66_save_load, C67_known_interpolated, C67_witness, C68_unsorted_second_fit, C68_witness, C69_estimated, C69_estimated_inputs, C69_given_lhs, C70_estimated_aligned, C70_finite_differences_align, C70_l2, C70_plain, C70_tikhonov, C71_dropped_witness, C71_misaligned_witness, C71_shifted_witness, C72_continuous, C72_continuous_cases, C72_continuous_followed, C72_continuous_passed, C72_continuous_refused, C72_continuous_test, C72_continuous_trajectory, C72_discrete, C72_discrete_cases, C72_discrete_passed, C72_discrete_test, C72_discrete_trajectory, C73_blind, C73_continuous_partial, C73_continuous_short, C73_discrete_partial, C73_discrete_witness, C73_nan_witness, C74_best_basis, C75_best_basis_partial, C75_decomposition, C75_energy_witness, C75_kept_partial, C75_orthogonal_snapshots, C75_single_snapshot_witness, C75_smallest_dropped, C76_discrete_recovers, C76_fit_recovers, C76_fit_recovers_l2, C76_not_determined, C77_continuous_iff, C77_continuous_intrusive, C77_continuous_recovers, C77_discrete_iff, C77_discrete_intrusive, C77_discrete_recovers, C77_discrete_reproduces, C78_jacobian_is_derivative, C78_jacobian_unique, C79_integrand, C79_jacobian_choice, C79_jacobian_exact, C79_predict_call, C80_aligns, C80_estimate_inputs_iff, C80_mask_inputs, C81_verify_not_harmless, C81_verify_passes, C82_failed_fit, C82_l2, C82_l2_decoupled, C82_l2_history, C82_plain, C82_tikhonov, C82_tikhonov_decoupled, C82_tikhonov_decoupled_shapes, C82_tikhonov_history, C82_tls, C82_tsvd_all_modes, C82_tsvd_partial, C83_constructed_copy, C83_copy, C83_fit_ready, C83_from_models, C83_from_models_ready, C83_from_models_succeeds, C83_load, C83_not_refittable, C83_parametric_copy, C83_refused, C83_trained_copies, C83_unsorted, C83_warning, C84_file_contents, C84_save_load, C84_solver_lost, C84_solver_witness, C84_trained, C84_untrained, C85_l2, C85_plain, C85_recovers, C85_tikhonov, C86_estimated, C86_estimated_inputs, C86_given_lhs, C86_l2, C86_plain, C86_reproduces, C86_tikhonov, C87_accepted_partial, C87_refused_partial, C87_surplus_discrete_witness, C87_surplus_estimated_witness, C87_surplus_lhs_witness, C88_continuous_partial, C88_continuous_passed, C88_continuous_refused, C88_continuous_scores, C88_discrete_partial, C88_discrete_passed, C88_discrete_scores, C88_interpolatory_continuous_partial, C88_interpolatory_continuous_passed, C88_interpolatory_discrete_partial, C88_interpolatory_discrete_passed, C88_interpolatory_partial, C88_interpolatory_unordered, C88_later_fit_witness, C88_predictions, C88_select_partial, C88_unordered, C88_unordered_witness, C89_accepted, C89_accepted_iff, C89_accepts, C89_accepts_without_ddts, C89_multi, C89_null, C89_overwriting_accepted, C89_pipeline, C89_pipeline_of_multi_refused, C89_scale, C89_shift, C89_shiftscale_partial, C89_times, C89_unrecovered_refused, C89_unscaled_byrow_refused, C90_accepts, C90_linear, C90_linear_outcome, C90_multi, C90_multi_outcome, C90_outcome, C90_pod, C90_pod_fitted, C90_small_accepted, C91_best, C91_multi, C91_pod_residual, C91_post, C91_weighted_false, C91_zero_iff, C91_zero_iff_fixed, C92_call_iff, C92_estimators_agree, C92_integer_false, C92_integer_iff, C92_integer_states_partial, C92_type_errors, C93_accepted_iff, C93_affine_states, C93_coarse_refused, C93_even_orders, C93_fine_mesh, C93_mesh_refinement, C93_not_recovered, C93_polynomial_recovers, C93_quadratic, C93_time_required, C93_wrong_accepted, C94_accepted_iff, C94_builtin_accepted, C94_builtin_deletes_file, C94_class_iff, C94_classes_accepted, C94_difference_bound, C94_differences_converge, C94_galerkin_unchecked, C94_small_state_refused, C94_zero_jacobian_accepted, C95_accepted_iff, C95_affine_accepted, C95_fresh_affine_refused, C95_interp_accepted, C95_scalar_parameter, C95_unknown_dimension, C96_accepted_iff, C96_failed_fit, C96_l2, C96_l2_decoupled, C96_plain, C96_singular_refused, C96_small_solution, C96_tikhonov, C96_tikhonov_decoupled, C96_tls, C96_tsvd, C97_builtin_report, C97_exact_reported, C97_grids, C97_input_derivatives_unchecked, C97_linear_reported, C97_misreported, C97_nonuniform, C97_nonuniform_exact, C97_not_restored, C97_report_not_errors, C97_test_derivatives, C97_too_short, C97_uniform, C98_augcond, C98_augcond_stale, C98_cond, C98_regcond, C98_regcond_decoupled, C98_regcond_not_cond, C98_regcond_wide_partial, C98_tcond, C98_unique, C99_centering, C99_minmax, C99_minmaxsym, C99_scale, C99_scale_back, C99_scale_decreasing, C99_scale_learned, C99_scale_learns_iff, C99_shift_broadcasts, C99_shift_learned, C99_shift_learns_iff, C99_shift_transformer

