import Verif.Model.RegSelect
import Verif.Model.Hdf5

/-!
# Posterior distributions and Bayesian reduced-order models

Model of /repo/src/opinf/roms/_bayes.py for nonparametric models. `scipy.stats` is not modelled; what the code uses
of it is the structure `NormalLib`. Random numbers come from a generator state that is passed along. Exact
arithmetic; printing and warnings are not modelled.
-/

namespace Opinf

open List

variable {K S G : Type}

/-! ### The library -/

/-- What is used of `scipy.stats` and `numpy.random`.
`invert P`: the attribute `covariance` of `Covariance.from_precision(P)`, which raises `LinAlgError` unless the
Cholesky factorization exists. `admits C`: whether `multivariate_normal(cov=C)` accepts the array `C`.
`sample`: the numbers drawn for a mean and a covariance. -/
structure NormalLib (K G : Type) where
  invert : Mat K → Except Err (Mat K)
  admits : Mat K → Except Err Unit
  sample : List K → Mat K → G → List K × G

/-- A frozen distribution `multivariate_normal(mean, cov)`; `viaObject` if `cov` was given as a `Covariance` object
and not as an array. -/
structure RowDist (K : Type) where
  mean : List K
  cov : Mat K
  viaObject : Bool
  deriving DecidableEq

/-- What drawing returns. -/
inductive Sample (K : Type)
  | scalar (x : K)
  | vec (v : List K)
  | mat (A : Mat K)
  deriving DecidableEq

/-- `rv.rvs()`. The library returns an array of shape `(1, d)` if the covariance was given as an object; if it was
given as an array all dimensions of size one are dropped: the shape is `(d,)`, and for `d = 1` the result is a
number. -/
def RowDist.rvs (L : NormalLib K G) (rv : RowDist K) (g : G) : Sample K × G :=
  let out := L.sample rv.mean rv.cov g
  if rv.viaObject then (.mat ⟨1, out.1.length, [out.1]⟩, out.2)
  else match out.1 with
    | [x] => (.scalar x, out.2)
    | v => (.vec v, out.2)

/-- `x[0]`. -/
def Sample.first : Sample K → Except Err (Sample K)
  | .scalar _ => .error .index
  | .vec [] => .error .index
  | .vec (x :: _) => .ok (.scalar x)
  | .mat A => match A.rows with
    | [] => .error .index
    | row :: _ => .ok (.vec row)

/-! ### OperatorPosterior -/

/-- `OperatorPosterior`: _bayes.py:36-193. -/
structure Posterior (K : Type) where
  rows : List (RowDist K)
  asArray : Bool
  deriving DecidableEq

/-- One pass of the loop in `__init__`: _bayes.py:85-103. -/
def rowDist (L : NormalLib K G) (inverted : Bool) (mean prec : NdArg K) : Except Err (RowDist K) :=
  match mean with
  | .vec mu => match prec with
    | .mat P =>
      if P.nrows ≠ mu.length ∨ P.ncols ≠ mu.length then .error .value
      else if inverted then match L.admits P with
        | .error e => .error e
        | .ok () => .ok ⟨mu, P, false⟩
      else match L.invert P with
        | .error e => .error e
        | .ok C => .ok ⟨mu, C, true⟩
    | _ => .error .value
  | _ => .error .value

/-- The loop in `__init__`. -/
def rowDists (L : NormalLib K G) (inverted : Bool) : List (NdArg K) → List (NdArg K) → Except Err (List (RowDist K))
  | m :: ms, p :: ps => match rowDist L inverted m p with
    | .error e => .error e
    | .ok rv => match rowDists L inverted ms ps with
      | .error e => .error e
      | .ok rvs => .ok (rv :: rvs)
  | _, _ => .ok []

/-- `OperatorPosterior(means, precisions, alreadyinverted=inverted)`: _bayes.py:76-109. Without any row `means[0]`
raises `IndexError`. -/
def Posterior.make (L : NormalLib K G) (means precs : List (NdArg K)) (inverted : Bool) : Except Err (Posterior K) :=
  if means.length ≠ precs.length then .error .value
  else match rowDists L inverted means precs with
    | .error e => .error e
    | .ok [] => .error .index
    | .ok (rv :: rvs) => .ok ⟨rv :: rvs, rvs.all fun rv' => rv'.mean.length == rv.mean.length⟩

/-- `means`: _bayes.py:123-128. -/
def Posterior.means (P : Posterior K) : List (List K) := P.rows.map RowDist.mean

/-- `covs`: _bayes.py:130-136. -/
def Posterior.covs (P : Posterior K) : List (Mat K) := P.rows.map RowDist.cov

/-- `__eq__`: _bayes.py:138-147. -/
def Posterior.beq [DecidableEq K] (P Q : Posterior K) : Bool :=
  if P.rows.length ≠ Q.rows.length then false
  else (zipWith (fun (a b : List K) => decide (a = b)) P.means Q.means).all id &&
    (zipWith (fun (a b : Mat K) => decide (a = b)) P.covs Q.covs).all id

/-- The list of `rv.rvs()[0]`: _bayes.py:159. -/
def drawRows (L : NormalLib K G) : List (RowDist K) → G → G × Except Err (List (Sample K))
  | [], g => (g, .ok [])
  | rv :: rvs, g => match (rv.rvs L g).1.first with
    | .error e => ((rv.rvs L g).2, .error e)
    | .ok x => match drawRows L rvs (rv.rvs L g).2 with
      | (g, .error e) => (g, .error e)
      | (g, .ok xs) => (g, .ok (x :: xs))

/-- The result of `OperatorPosterior.rvs()`: an array or a list. -/
inductive RvsOut (K : Type)
  | matrix (A : Mat K)
  | vector (v : List K)
  | list (xs : List (Sample K))
  deriving DecidableEq

/-- The numbers in a list of numbers. -/
def scalars : List (Sample K) → Option (List K)
  | [] => some []
  | .scalar x :: xs => (scalars xs).map (x :: ·)
  | _ :: _ => none

/-- The vectors in a list of vectors of length `d`. -/
def vectors (d : Nat) : List (Sample K) → Option (List (List K))
  | [] => some []
  | .vec v :: xs => if v.length = d then (vectors d xs).map (v :: ·) else none
  | _ :: _ => none

/-- `np.array(ohats)`; entries of different shapes raise `ValueError`. -/
def stackSamples (xs : List (Sample K)) : Except Err (RvsOut K) :=
  match scalars xs with
  | some v => .ok (.vector v)
  | none => match xs with
    | .vec v :: _ => match vectors v.length xs with
      | some rows => .ok (.matrix ⟨rows.length, v.length, rows⟩)
      | none => .error .value
    | _ => .error .value

/-- `rvs()`: _bayes.py:150-160. -/
def Posterior.rvs (L : NormalLib K G) (P : Posterior K) (g : G) : G × Except Err (RvsOut K) :=
  match drawRows L P.rows g with
  | (g, .error e) => (g, .error e)
  | (g, .ok xs) => if P.asArray then (g, stackSamples xs) else (g, .ok (.list xs))

/-- The contents `save()` writes: _bayes.py:163-177; row `i` is subgroup `i`. -/
def Posterior.save (P : Posterior K) : Saved K :=
  (.node [("state_dimension", .nat P.rows.length)]
    (P.rows.map fun rv => .node [("means", .arr rv.mean), ("covs", .mat rv.cov)] []), .ok ())

/-- Reading the rows: _bayes.py:188-191. -/
def readRows : Nat → List (H5 K) → Except Err (List (NdArg K) × List (NdArg K))
  | 0, _ => .ok ([], [])
  | _ + 1, [] => .error .key
  | n + 1, h :: hs => match h.arr "means" with
    | .error e => .error e
    | .ok mu => match h.mat "covs" with
      | .error e => .error e
      | .ok C => match readRows n hs with
        | .error e => .error e
        | .ok (ms, cs) => .ok (.vec mu :: ms, .mat C :: cs)

/-- What `load()` does with the handle: _bayes.py:186-191. -/
def readPosterior (h : H5 K) : Except Err (List (NdArg K) × List (NdArg K)) :=
  match h.nat "state_dimension" with
  | .error e => .error e
  | .ok n => readRows n h.subs

/-- `OperatorPosterior.load(loadfile)`: _bayes.py:179-193; the object is made after the file has been closed. -/
def Posterior.load (L : NormalLib K G) (fs : FS K) (path : String) : Except Err (Posterior K) :=
  match loadFile fs path readPosterior with
  | .error e => .error e
  | .ok (ms, cs) => Posterior.make L ms cs true

/-! ### BayesianROM -/

/-- A `BayesianROM` as far as its model and its posterior are concerned, with the state of the random numbers. -/
structure BRom (K S G : Type) where
  model : Model K S
  posterior : Option (Posterior K)
  gen : G

/-- What a Bayesian model uses of its solver besides `fit` and `solve`: `posterior()` and `reset()`. -/
structure BayesI (K S : Type) where
  posterior : S → Except Err (Mat K × List (Mat K))
  reset : S → S

/-- `OperatorPosterior(*solver.posterior())`. -/
def solverPosterior (L : NormalLib K G) (B : BayesI K S) (s : S) : Except Err (Posterior K) :=
  match B.posterior s with
  | .error e => .error e
  | .ok (O, Ps) => Posterior.make L (O.rows.map .vec) (Ps.map .mat) false

/-- `_initialize_posterior()`: _bayes.py:225-231; only `LinAlgError` is caught. -/
def BRom.initPosterior (L : NormalLib K G) (B : BayesI K S) (R : BRom K S G) : BRom K S G × Except Err Unit :=
  match R.model.solver with
  | none => (R, .error .attribute)
  | some s => match solverPosterior L B s with
    | .ok P => ({ R with posterior := some P }, .ok ())
    | .error .linalg => ({ R with posterior := none }, .ok ())
    | .error e => (R, .error e)

/-- `self.model._extract_operators(Ohat)` for the possible results of `rvs()`: a one-dimensional array cannot be
indexed with two indices (`IndexError`), a list cannot be indexed with a tuple (`TypeError`). Without any learned
operator nothing is indexed; that case is modelled as the error, too. -/
def Model.extractDraw [AddMonoid K] (M : Model K S) : RvsOut K → Model K S × Except Err Unit
  | .matrix A => M.extract A
  | .vector _ => (M, .error .index)
  | .list _ => (M, .error .type)

/-- `draw_operators()`: _bayes.py:232-236. Without a posterior `None.rvs` raises `AttributeError`. -/
def BRom.drawOperators [AddMonoid K] (L : NormalLib K G) (R : BRom K S G) : BRom K S G × Except Err Unit :=
  match R.posterior with
  | none => (R, .error .attribute)
  | some P => match P.rvs L R.gen with
    | (g, .error e) => ({ R with gen := g }, .error e)
    | (g, .ok out) => ({ R with gen := g, model := (R.model.extractDraw out).1 }, (R.model.extractDraw out).2)

/-- `predict` of a Bayesian model: _bayes.py:870-871; `f` is what `ROM.predict` does with the model. -/
def BRom.predict [AddMonoid K] {α : Type} (L : NormalLib K G) (f : Model K S → Except Err α) (R : BRom K S G) :
    BRom K S G × Except Err α :=
  match R.drawOperators L with
  | (R, .error e) => (R, .error e)
  | (R, .ok ()) => (R, f R.model)

/-- `fit`: _bayes.py:612-637, on processed data. -/
def BRom.fit [CommRing K] (L : NormalLib K G) (I : SolverI K S) (B : BayesI K S) (R : BRom K S G)
    (states lhs : Arg K) (inputs : Option (Arg K)) : BRom K S G × Except Err Unit :=
  match R.model.fit I states lhs inputs with
  | (M, .error e) => ({ R with model := M }, .error e)
  | (M, .ok ()) => BRom.initPosterior L B { R with model := M }

/-! ### Selecting the regularization -/

/-- `update_model(reg_params)`: _bayes.py:341-346, 483-488. -/
def BRom.update (L : NormalLib K G) (B : BayesI K S) (setReg : S → Point K → S × Except Err Unit) (R : BRom K S G)
    (p : Point K) : BRom K S G × Except Err Unit :=
  match R.model.solver with
  | none => (R, .error .attribute)
  | some s => match setReg s p with
    | (s, .error e) => ({ R with model := { R.model with solver := some s } }, .error e)
    | (s, .ok ()) => BRom.initPosterior L B { R with model := { R.model with solver := some s } }

/-- The inner loop over the draws for one test case: _bayes.py:357-362, 499-504. -/
def BRom.testDraws [AddMonoid K] (L : NormalLib K G) (c : RegCase K (Model K S)) : Nat → BRom K S G → BRom K S G × Except Err Bool
  | 0, R => (R, .ok true)
  | n + 1, R => match R.drawOperators L with
    | (R, .error e) => (R, .error e)
    | (R, .ok ()) => match c.predict R.model with
      | .error e => (R, .error e)
      | .ok Q => if c.unstable Q then (R, .ok false) else BRom.testDraws L c n R

/-- The loop over the test cases. -/
def BRom.testLoop [AddMonoid K] (L : NormalLib K G) (n : Nat) : List (RegCase K (Model K S)) → BRom K S G → BRom K S G × Except Err Bool
  | [], R => (R, .ok true)
  | c :: cs, R => match R.testDraws L c n with
    | (R, .error e) => (R, .error e)
    | (R, .ok false) => (R, .ok false)
    | (R, .ok true) => BRom.testLoop L n cs R

/-- A training trajectory: prediction, decision, and the relative error of the mean of the draws. -/
structure BayesCase (K S : Type) where
  predict : Model K S → Except Err (Traj K)
  unstable : Traj K → Except Err Bool
  error : List (Traj K) → Except Err (Val K)

/-- `np.mean(draws, axis=0)` for draws of equal shape. -/
def meanDraws [Field K] (draws : List (List (List K))) : List (List K) :=
  match draws with
  | [] => []
  | d :: ds => (ds.foldl (zipWith vadd) d).map fun col => col.map (· / ((d :: ds).length : K))

/-- Training trajectory `Q` in `fit_regselect_discrete` of a Bayesian model: _bayes.py:459-472, 506-524. The mean of
no draws (`num_posterior_draws = 0`) is a NaN, on which the error measure raises `ValueError`. -/
def bayesDiscreteCase [Field K] [LinearOrder K] (sqrt : K → K) (r : Nat) (limit : Val K) (Q : List (List K))
    (numTest : Nat) (inputs : PredInput K) : BayesCase K S where
  predict M := (M.predict (Q.headD []) (Q.length + numTest : Nat) inputs).map finiteTraj
  unstable := unstableDisc (meanCol r Q) limit
  error draws := if draws.isEmpty then .error .value else
    (frobeniusError sqrt (.mat r Q) (.mat r (meanDraws (draws.map fun sol => sol.nums.take Q.length)))).map Prod.snd

/-- The inner loop over the draws for one training trajectory: _bayes.py:373-385, 515-523; `none` is
`return np.inf`. -/
def BRom.trainDraws [AddMonoid K] (L : NormalLib K G) (c : BayesCase K S) :
    Nat → List (Traj K) → BRom K S G → BRom K S G × Except Err (Option (List (Traj K)))
  | 0, draws, R => (R, .ok (some draws))
  | n + 1, draws, R => match R.drawOperators L with
    | (R, .error e) => (R, .error e)
    | (R, .ok ()) => match c.predict R.model with
      | .error e => (R, .error e)
      | .ok Q => match c.unstable Q with
        | .error e => (R, .error e)
        | .ok true => (R, .ok none)
        | .ok false => BRom.trainDraws L c n (draws ++ [Q]) R

/-- The loop over the training trajectories: _bayes.py:364-386, 506-524. -/
def BRom.trainLoop [Field K] (L : NormalLib K G) (n : Nat) :
    Val K → List (BayesCase K S) → BRom K S G → BRom K S G × Except Err (Option (Val K))
  | err, [], R => (R, .ok (some err))
  | err, c :: cs, R => match R.trainDraws L c n [] with
    | (R, .error e) => (R, .error e)
    | (R, .ok none) => (R, .ok none)
    | (R, .ok (some draws)) => match c.error draws with
      | .error e => (R, .error e)
      | .ok e => BRom.trainLoop L n (err.add e) cs R

/-- `training_error` after the posterior has been found: _bayes.py:357-387, 499-525. -/
def BRom.evaluate [Field K] (L : NormalLib K G) (n : Nat) (tests : List (RegCase K (Model K S))) (trains : List (BayesCase K S))
    (R : BRom K S G) : BRom K S G × Except Err (Val K) :=
  match R.testLoop L n tests with
  | (R, .error e) => (R, .error e)
  | (R, .ok false) => (R, .ok .inf)
  | (R, .ok true) => match R.trainLoop L n (.num 0) trains with
    | (R, .error e) => (R, .error e)
    | (R, .ok none) => (R, .ok .inf)
    | (R, .ok (some err)) => (R, .ok (err.divNat trains.length))

/-- `training_error(reg_params)`: _bayes.py:348-387, 490-525. In contrast to other models an exception of
`update_model` is not caught. -/
def BRom.trainingError [Field K] (L : NormalLib K G) (B : BayesI K S) (setReg : S → Point K → S × Except Err Unit)
    (n : Nat) (tests : List (RegCase K (Model K S))) (trains : List (BayesCase K S)) (p : Point K) (R : BRom K S G) :
    BRom K S G × Except Err (Val K) :=
  match R.update L B setReg p with
  | (R, .error e) => (R, .error e)
  | (R, .ok ()) => match R.posterior with
    | none => (R, .ok .inf)
    | some _ => R.evaluate L n tests trains

/-- `fit_regselect_*` of a Bayesian model on processed data, after the solver has been reset: _bayes.py:298-398,
450-536. -/
def BRom.select [Field K] [LinearOrder K] (L : NormalLib K G) (I : SolverI K S) (B : BayesI K S)
    (setReg : S → Point K → S × Except Err Unit) (Sr : Search K) (n : Nat)
    (cases : Except Err (List (RegCase K (Model K S)) × List (BayesCase K S))) (candidates : Cands K) (only : Bool)
    (R : BRom K S G) (states lhs : Arg K) (inputs : Option (Arg K)) : BRom K S G × Except Err Unit :=
  match R.model.fitSolver I states lhs inputs with
  | (M, .error e) => ({ R with model := M }, .error e)
  | (M, .ok ()) => match cases with
    | .error e => ({ R with model := M }, .error e)
    | .ok (tests, trains) =>
      match gridsearch Sr.pow10 Sr.big Sr.optimiser (BRom.trainingError L B setReg n tests trains) candidates only
        { R with model := M } with
      | (R, .error e) => (R, .error e)
      | (R, .ok w) => R.update L B setReg w

/-- `fit_regselect_*` of a Bayesian model on processed data: _bayes.py:295-398, 447-536. Here the solver *is* reset
first (296-297, 448-449). -/
def BRom.regselect [Field K] [LinearOrder K] (L : NormalLib K G) (I : SolverI K S) (B : BayesI K S)
    (setReg : S → Point K → S × Except Err Unit) (Sr : Search K) (n : Nat)
    (cases : Except Err (List (RegCase K (Model K S)) × List (BayesCase K S))) (candidates : Cands K) (only : Bool)
    (R : BRom K S G) (states lhs : Arg K) (inputs : Option (Arg K)) : BRom K S G × Except Err Unit :=
  BRom.select L I B setReg Sr n cases candidates only
    { R with model := { R.model with solver := R.model.solver.map B.reset } } states lhs inputs

end Opinf
