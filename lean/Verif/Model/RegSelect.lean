import Verif.Model.Gridsearch
import Verif.Model.Post
import Verif.Model.SolverAdapt

/-!
# Selecting the regularization

Model of `fit_regselect_continuous` and `fit_regselect_discrete`, /repo/src/opinf/roms/_base.py:525-987, for
nonparametric models, from the first call of the solver on, and of the test cases of
/repo/src/opinf/utils/_gridsearch.py:196-350. A predicted trajectory is a list of columns of floating point
values (numerical integration may produce infinities and NaN). Integration and the error measure enter a case as
functions; `discreteCase` gives them for fully discrete models. For parametric models see
`Verif/Model/ParamSelect.lean`. Printing and warnings are not modelled.
-/

namespace Opinf

open List

variable {K S : Type}

/-! ### Floating point values -/

/-- `x + y`. -/
def Val.add [Add K] : Val K → Val K → Val K
  | .num x, .num y => .num (x + y)
  | .nan, _ => .nan
  | _, .nan => .nan
  | .inf, .ninf => .nan
  | .ninf, .inf => .nan
  | .inf, _ => .inf
  | _, .inf => .inf
  | .ninf, _ => .ninf
  | _, .ninf => .ninf

/-- `x / n` for a positive integer `n`. -/
def Val.divNat [Field K] (n : Nat) : Val K → Val K
  | .num x => .num (x / n)
  | v => v

/-- `|x - s|` for a number `s`. -/
def Val.dist [Field K] [LinearOrder K] (s : K) : Val K → Val K
  | .num x => .num |x - s|
  | .nan => .nan
  | _ => .inf

/-- Neither NaN nor infinite. -/
def Val.isFinite : Val K → Bool
  | .num _ => true
  | _ => false

/-! ### Stability -/

/-- A predicted trajectory. -/
abbrev Traj (K : Type) := List (List (Val K))

/-- `np.abs(_Q - shift)` as a list of entries; `_Q` has as many rows as `shift`. -/
def Traj.dists [Field K] [LinearOrder K] (shift : List K) (Q : Traj K) : List (Val K) :=
  (Q.map fun col => zipWith Val.dist shift col).flatten

/-- `np.abs(_Q - shift).max() > limit`: the maximum of nothing raises `ValueError`; the maximum of an array with a
NaN is NaN, which is not above the limit; otherwise the maximum is above the limit if some entry is. -/
def exceeds [Field K] [LinearOrder K] (shift : List K) (limit : Val K) (Q : Traj K) : Except Err Bool :=
  if (Q.dists shift).isEmpty then .error .value
  else if (Q.dists shift).any (fun d => decide (d = .nan)) then .ok false
  else .ok ((Q.dists shift).any fun d => limit.lt d)

/-- `unstable` of `fit_regselect_continuous`: roms/_base.py:696-700. -/
def unstableCont [Field K] [LinearOrder K] (shift : List K) (limit : Val K) (size : Nat) (Q : Traj K) :
    Except Err Bool :=
  if Q.length ≠ size then .ok true else exceeds shift limit Q

/-- `unstable` of `fit_regselect_discrete`: roms/_base.py:917-921. -/
def unstableDisc [Field K] [LinearOrder K] (shift : List K) (limit : Val K) (Q : Traj K) : Except Err Bool :=
  if Q.any (fun col => col.any fun x => !x.isFinite) then .ok true else exceeds shift limit Q

/-- The common part of `DiscreteRegTest.unstable` and `ContinuousRegTest.unstable`:
_gridsearch.py:280-288, 344-350. -/
def unstableBound [Field K] [LinearOrder K] (q0 : List K) (bound : Option K) (Q : Traj K) : Bool :=
  if Q.any (fun col => col.any fun x => !x.isFinite) then true
  else match bound with
    | none => false
    | some B => (Q.dists q0).any fun d => (Val.num B).lt d

/-- `ContinuousRegTest.unstable`: _gridsearch.py:340-350. -/
def unstableTestCont [Field K] [LinearOrder K] (size : Nat) (q0 : List K) (bound : Option K) (Q : Traj K) : Bool :=
  if Q.length ≠ size then true else unstableBound q0 bound Q

/-- `np.mean(Q, axis=1)`: roms/_base.py:460; `Q` is a list of columns of length `r`. -/
def meanCol [Field K] (r : Nat) (Q : List (List K)) : List K :=
  (transpose r Q).map fun row => row.sum / (Q.length : K)

/-- One entry of `limits`: roms/_base.py:461-472; `0` is replaced by infinity. The maximum of nothing raises. -/
def stabilityLimit [Field K] [LinearOrder K] (r : Nat) (margin : K) (Q : List (List K)) : Except Err (Val K) :=
  match (Q.map fun col => (zipWith (fun a b => |b - a|) (meanCol r Q) col)).flatten with
  | [] => .error .value
  | d :: ds => if margin * ds.foldl max d = 0 then .ok .inf else .ok (.num (margin * ds.foldl max d))

/-! ### Test cases and training trajectories -/

/-- A processed test case for models of type `X`: prediction by the model under the conditions of the case, and the
decision. -/
structure RegCase (K X : Type) where
  predict : X → Except Err (Traj K)
  unstable : Traj K → Bool

/-- A training trajectory: prediction from its first snapshot, decision, relative error of the prediction. -/
structure TrainCase (K X : Type) where
  predict : X → Except Err (Traj K)
  unstable : Traj K → Except Err Bool
  error : Traj K → Except Err (Val K)

/-- A fully discrete prediction as a trajectory (exact arithmetic never overflows). -/
def finiteTraj (Q : List (List K)) : Traj K := Q.map fun col => col.map .num

/-- The numbers of a trajectory; only used for finite ones. -/
def Traj.nums [Zero K] (Q : Traj K) : List (List K) := Q.map fun col => col.map fun v => match v with
  | .num x => x
  | _ => 0

/-- `DiscreteRegTest(initial_conditions, niters, inputs, bound)` after encoding: _gridsearch.py:254-288. -/
def discreteTest [Field K] [LinearOrder K] (q0 : List K) (niters : Int) (inputs : PredInput K) (bound : Option K) :
    RegCase K (Model K S) where
  predict M := (M.predict q0 niters inputs).map finiteTraj
  unstable := unstableBound q0 bound

/-- Training trajectory `Q` (columns of length `r`) in `fit_regselect_discrete`: roms/_base.py:913-930, 962-976.
The relative error of a non-finite prediction is never asked for. -/
def discreteCase [Field K] [LinearOrder K] (sqrt : K → K) (r : Nat) (limit : Val K) (Q : List (List K))
    (numTest : Nat) (inputs : PredInput K) : TrainCase K (Model K S) where
  predict M := (M.predict (Q.headD []) (Q.length + numTest : Nat) inputs).map finiteTraj
  unstable := unstableDisc (meanCol r Q) limit
  error sol := (frobeniusError sqrt (.mat r Q) (.mat r (sol.nums.take Q.length))).map Prod.snd

/-! ### The selection -/

/-- `update_model(reg_params)`: roms/_base.py:721-729, 938-946. `setReg` is `regularizer_factory` followed by
the setter `solver.regularizer = reg`, with the solver state it leaves if it raises. -/
def updateModel [AddMonoid K] (I : SolverI K S) (setReg : S → Point K → S × Except Err Unit) (M : Model K S)
    (p : Point K) : Model K S × Except Err Unit :=
  match M.solver with
  | none => (M, .error .attribute)
  | some s => match setReg s p with
    | (s, .error e) => ({ M with solver := some s }, .error e)
    | (s, .ok ()) => Model.refit I { M with solver := some s }

/-- The loop over the test cases: roms/_base.py:744-747, 961-963; `true` if all are stable. -/
def testLoop {X : Type} (M : X) : List (RegCase K X) → Except Err Bool
  | [] => .ok true
  | c :: cs => match c.predict M with
    | .error e => .error e
    | .ok Q => if c.unstable Q then .ok false else testLoop M cs

/-- The loop over the training trajectories: roms/_base.py:750-767, 966-980; `none` is `return np.inf`. -/
def trainLoop {X : Type} [Field K] (M : X) : Val K → List (TrainCase K X) → Except Err (Option (Val K))
  | err, [] => .ok (some err)
  | err, c :: cs => match c.predict M with
    | .error e => .error e
    | .ok Q => match c.unstable Q with
      | .error e => .error e
      | .ok true => .ok none
      | .ok false => match c.error Q with
        | .error e => .error e
        | .ok e => trainLoop M (err.add e) cs

/-- `training_error` after `update_model`: roms/_base.py:744-768, 961-981. -/
def evalModel {X : Type} [Field K] (tests : List (RegCase K X)) (trains : List (TrainCase K X)) (M : X) :
    Except Err (Val K) :=
  match testLoop M tests with
  | .error e => .error e
  | .ok false => .ok .inf
  | .ok true => match trainLoop M (.num 0) trains with
    | .error e => .error e
    | .ok none => .ok .inf
    | .ok (some err) => .ok (err.divNat trains.length)

/-- `training_error(reg_params)`: roms/_base.py:731-768, 948-981. An exception of `update_model` counts as
unstable; exceptions of the predictions are not caught. -/
def trainingError [Field K] (I : SolverI K S) (setReg : S → Point K → S × Except Err Unit)
    (tests : List (RegCase K (Model K S))) (trains : List (TrainCase K (Model K S))) (p : Point K) (M : Model K S) :
    Model K S × Except Err (Val K) :=
  match updateModel I setReg M p with
  | (M, .error _) => (M, .ok .inf)
  | (M, .ok ()) => (M, evalModel tests trains M)

/-- What is given once and for all: the optimiser of the grid search and the power function. -/
structure Search (K : Type) where
  pow10 : Point K → Point K
  big : K
  optimiser : Start K → Optim K

/-- `fit_regselect_*` on processed data: roms/_base.py:672-779, 895-987. `hasattr(self.model, "reset")` is false
for every model class, so the solver is *not* reset (673-675, 896-898). `cases` is the processing of the test
cases and of the stability limits, which may raise (689-693, 912-915). -/
def regselect [Field K] [LinearOrder K] (I : SolverI K S) (setReg : S → Point K → S × Except Err Unit)
    (G : Search K) (cases : Except Err (List (RegCase K (Model K S)) × List (TrainCase K (Model K S)))) (candidates : Cands K)
    (only : Bool) (M : Model K S) (states lhs : Arg K) (inputs : Option (Arg K)) : Model K S × Except Err Unit :=
  match M.fitSolver I states lhs inputs with
  | (M, .error e) => (M, .error e)
  | (M, .ok ()) => match cases with
    | .error e => (M, .error e)
    | .ok (tests, trains) =>
      match gridsearch G.pow10 G.big G.optimiser (trainingError I setReg tests trains) candidates only M with
      | (M, .error e) => (M, .error e)
      | (M, .ok w) => updateModel I setReg M w

/-- `solver.regularizer = regularizer_factory(reg_params)` for an `L2Solver`: lstsq/_tikhonov.py:256-264. -/
def l2SetReg [Zero K] [LT K] [DecidableLT K] (factory : Point K → Except Err (Option K)) (s : L2 K K)
    (p : Point K) : L2 K K × Except Err Unit :=
  match factory p with
  | .error e => (s, .error e)
  | .ok reg => s.setReg reg

/-- The same for an `L2DecoupledSolver`. -/
def l2DecSetReg [Zero K] [LT K] [DecidableLT K] (factory : Point K → Except Err (Option (NdArg K)))
    (s : L2 (List K) K) (p : Point K) : L2 (List K) K × Except Err Unit :=
  match factory p with
  | .error e => (s, .error e)
  | .ok reg => s.setRegs reg

/-- The same for a `TikhonovSolver`. -/
def tikSetReg [Zero K] [LT K] [DecidableLT K] (factory : Point K → Except Err (Option (RegArg K)))
    (s : Tik (Mat K) K) (p : Point K) : Tik (Mat K) K × Except Err Unit :=
  match factory p with
  | .error e => (s, .error e)
  | .ok reg => s.setReg reg

/-- The same for a `TikhonovDecoupledSolver`. -/
def tikDecSetReg [Zero K] [LT K] [DecidableLT K] (factory : Point K → Except Err (Option (List (RegArg K))))
    (s : Tik (List (Mat K)) K) (p : Point K) : Tik (List (Mat K)) K × Except Err Unit :=
  match factory p with
  | .error e => (s, .error e)
  | .ok reg => s.setRegs reg

/-- `_identity` for a scalar regularizer: an array raises `TypeError`. -/
def scalarFactory : Point K → Except Err (Option K)
  | .num x => .ok (some x)
  | .vec _ => .error .type

/-- `_identity` for a `TikhonovSolver` whose candidates are arrays of diagonal entries. The setter stores a number
as an array without dimensions and then rejects its shape; the model rejects it right away. -/
def diagFactory : Point K → Except Err (Option (RegArg K))
  | .num _ => .error .dimensionality
  | .vec xs => .ok (some (.diag xs))

end Opinf
