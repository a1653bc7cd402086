import Verif.Model.ParamRom
import Verif.Model.RomSelect

/-!
# Selecting the regularization of parametric reduced-order models

Model of `fit_regselect_discrete` and `fit_regselect_continuous` with `parameters` given:
/repo/src/opinf/roms/_base.py:437-523, 525-987. Predictions do not change a model whose solver has been fitted (the
parameter dimension of every operator is known then), so only their results are used. As in
`Verif/Model/RomSelect.lean`, solvers without a regularizer are represented by a model without a solver. Test cases without a parameter value are not modelled.
-/

namespace Opinf

open List

variable {K T B S X : Type}

/-! ### Models -/

/-- What the selection uses of a model: whether `model.solver.regularizer` exists, `_fit_solver`, the assignment of the
regularizer in `update_model` (with the state left behind if it raises), and `refit`. -/
structure SelI (K X : Type) where
  hasSolver : X → Bool
  fitSolver : X → List (Par K) → List (Arg K) → List (Arg K) → Option (List (Arg K)) → X × Except Err Unit
  assign : X → Point K → X × Except Err Unit
  refit : X → X × Except Err Unit

/-- `self.model.solver.regularizer = regularizer_factory(reg_params)`: _base.py:723, 728. -/
def PModel.assignReg (setReg : S → Point K → S × Except Err Unit) (M : PModel K S) (p : Point K) :
    PModel K S × Except Err Unit :=
  match M.solver with
  | none => (M, .error .attribute)
  | some s => ({ M with solver := some (setReg s p).1 }, (setReg s p).2)

/-- Parametric models with one regression problem. -/
def pSelI [CommRing K] [LinearOrder K] (lib : ItpLib K) (I : SolverI K S)
    (setReg : S → Point K → S × Except Err Unit) : SelI K (PModel K S) where
  hasSolver M := M.solver.isSome
  fitSolver M := M.fitSolver lib I
  assign M := M.assignReg setReg
  refit M := M.refit lib I

/-- `for solver in self.model.solvers: solver.regularizer = reg`: _base.py:724-726; `solvers` are those of the submodels
(/repo/src/opinf/models/mono/_parametric.py:1160). The solvers of the submodels are different objects. -/
def assignSubs (setReg : S → Point K → S × Except Err Unit) (p : Point K) :
    List (Model K S) → List (Model K S) × Except Err Unit
  | [] => ([], .ok ())
  | N :: Ns => match N.solver with
    | none => (N :: Ns, .error .attribute)
    | some s => match setReg s p with
      | (s, .error e) => ({ N with solver := some s } :: Ns, .error e)
      | (s, .ok ()) => ({ N with solver := some s } :: (assignSubs setReg p Ns).1, (assignSubs setReg p Ns).2)

/-- The assignment for interpolatory models: _base.py:723-726. Without submodels `solvers` does not exist. -/
def IModel.assignReg (setReg : S → Point K → S × Except Err Unit) (M : IModel K S) (p : Point K) :
    IModel K S × Except Err Unit :=
  match M.subs with
  | none => (M, .error .attribute)
  | some Ns => ({ M with subs := some (assignSubs setReg p Ns).1 }, (assignSubs setReg p Ns).2)

/-- Interpolatory models, with one regression problem for every parameter. -/
def iSelI [CommRing K] [LinearOrder K] (lib : ItpLib K) (plain : S) (l2 : Int → S) (I : SolverI K S)
    (setReg : S → Point K → S × Except Err Unit) : SelI K (IModel K S) where
  hasSolver M := M.base.solver.isSome
  fitSolver M := M.fitSolver lib plain l2 I
  assign M := M.assignReg setReg
  refit M := M.refit lib I

/-! ### The selection -/

/-- `update_model(reg_params)`: _base.py:721-729, 934-942. -/
def SelI.update (J : SelI K X) (M : X) (p : Point K) : X × Except Err Unit :=
  match J.assign M p with
  | (M, .error e) => (M, .error e)
  | (M, .ok ()) => J.refit M

/-- `training_error(reg_params)`: _base.py:731-768, 944-977. -/
def SelI.trainingError [Field K] (J : SelI K X) (tests : List (RegCase K X)) (trains : List (TrainCase K X))
    (p : Point K) (M : X) : X × Except Err (Val K) :=
  match J.update M p with
  | (M, .error _) => (M, .ok .inf)
  | (M, .ok ()) => (M, evalModel tests trains M)

/-- The selection after `_fit_solver`: _base.py:689-779, 911-987. -/
def SelI.select [Field K] [LinearOrder K] (J : SelI K X) (G : Search K)
    (cases : Except Err (List (RegCase K X) × List (TrainCase K X))) (cands : Cands K) (only : Bool) (M : X) :
    X × Except Err Unit :=
  match cases with
  | .error e => (M, .error e)
  | .ok (tests, trains) =>
    match gridsearch G.pow10 G.big G.optimiser (J.trainingError tests trains) cands only M with
    | (M, .error e) => (M, .error e)
    | (M, .ok w) => J.update M w

/-- `_fit_model(.., solver_only=True)` followed by the selection: _base.py:501-523, 677-779, 900-987. -/
def PRom.selectLists [Field K] [LinearOrder K] (P : ParI K X) (J : SelI K X) (G : Search K)
    (cases : Rom K T B → TrainData K → Except Err (List (RegCase K X) × List (TrainCase K X))) (cands : Cands K)
    (only : Bool) (R : PRom K T B X) (ps : List (Par K)) (states : List (Snap K)) (lhs inputs : Option (List (Snap K)))
    (fitT fitB : Bool) : PRom K T B X × Except Err Unit :=
  match R.checkFitArgs P lhs.isNone inputs.isNone with
  | .error e => (R, .error e)
  | .ok () => match R.process states lhs inputs fitT fitB with
    | (R, .error e) => (R, .error e)
    | (R, .ok d) => match J.fitSolver R.model ps (d.states.map Snap.toArg) (d.lhs.map Snap.toArg)
        (d.inputs.map fun us => us.map Snap.toArg) with
      | (M, .error e) => ({ R with model := M }, .error e)
      | (M, .ok ()) => ({ R with model := (J.select G (cases R.rom d) cands only M).1 },
          (J.select G (cases R.rom d) cands only M).2)

/-! ### Predictions at a parameter value -/

/-- `model.evaluate(parameter)`, of which `model.predict(parameter, ..)` is the prediction:
/repo/src/opinf/models/mono/_parametric.py:489-506, 890-938. -/
abbrev EvalAt (K X S : Type) := X → Par K → Except Err (Model K S)

/-- Evaluation of parametric models with one regression problem: _parametric.py:395-413. -/
def pEvalAt [Semiring K] (lib : ItpLib K) : EvalAt K (PModel K S) S := fun M mu => (M.evaluate lib mu).2

/-- Evaluation of interpolatory models, inherited from the parametric models: _parametric.py:395-413. -/
def iEvalAt [Semiring K] (lib : ItpLib K) : EvalAt K (IModel K S) S := fun M mu => (M.base.evaluate lib mu).2

/-- A test case at a parameter value. -/
def RegCase.at (ev : EvalAt K X S) (mu : Par K) (c : RegCase K (Model K S)) : RegCase K X :=
  ⟨fun M => match ev M mu with
    | .error e => .error e
    | .ok N => c.predict N, c.unstable⟩

/-- A training trajectory at a parameter value. -/
def TrainCase.at (ev : EvalAt K X S) (mu : Par K) (c : TrainCase K (Model K S)) : TrainCase K X :=
  ⟨fun M => match ev M mu with
    | .error e => .error e
    | .ok N => c.predict N, c.unstable, c.error⟩

/-! ### Fully discrete models -/

/-- `DiscreteRegTest(initial_conditions, niters, parameters, inputs, bound)`: utils/_gridsearch.py:232-262. -/
structure PDiscTest (K : Type) where
  mu : Par K
  test : DiscTest K

/-- The test case with encoded initial conditions: _gridsearch.py:254-288. -/
def PDiscTest.case [Field K] [LinearOrder K] (ev : EvalAt K X S) (t : PDiscTest K) (e : Snap K) : RegCase K X :=
  (t.test.case e).at ev t.mu

/-- The training trajectory at the parameter value `mu`, given by its reduced states: _base.py:911-930, 958-976. -/
def pDiscTrain [Field K] [LinearOrder K] (ev : EvalAt K X S) (sqrt : K → K) (margin : K) (numTest : Nat) (mu : Par K)
    (Y : Snap K) (U : PredInput K) : Except Err (TrainCase K X) :=
  (discTrain sqrt margin numTest Y U).map (TrainCase.at ev mu)

/-- The limits come first, then the test cases: _base.py:911-932. There are as many trajectories as parameters, for
`_fit_solver` has accepted them. -/
def pDiscCases [Field K] [LinearOrder K] (ev : EvalAt K X S) (sqrt : K → K) (margin : K) (numTest : Nat)
    (tests : List (PDiscTest K)) (ps : List (Par K)) (us : Option (List (Snap K))) (R : Rom K T B) (d : TrainData K) :
    Except Err (List (RegCase K X) × List (TrainCase K X)) :=
  match (zip ps (zip d.states (predInputs d.states.length us))).mapM fun x =>
      pDiscTrain ev sqrt margin numTest x.1 x.2.1 x.2.2 with
  | .error e => .error e
  | .ok trains => (tests.mapM fun t => (R.encode1 (.vec t.test.ic)).map (t.case ev)).map fun tests => (tests, trains)

/-- `fit_regselect_discrete(candidates, parameters, states, inputs, ..)`: _base.py:781-987. -/
def PRom.selectDiscrete [Field K] [LinearOrder K] (P : ParI K X) (J : SelI K X) (ev : EvalAt K X S) (G : Search K)
    (sqrt : K → K) (cands : Cands K) (R : PRom K T B X) (ps : List (Par K)) (states : List (Snap K))
    (inputs : Option (List (Snap K))) (fitT fitB only : Bool) (numTest : Int) (margin : K) (tests : List (PDiscTest K)) :
    PRom K T B X × Except Err Unit :=
  if R.rom.continuous then (R, .error .attribute)
  else if J.hasSolver R.model = false then (R, .error .attribute)
  else if numTest < 0 then (R, .error .value)
  else match checkSelInputs states numTest.toNat inputs with
    | .error e => (R, .error e)
    | .ok () => R.selectLists P J G (pDiscCases ev sqrt margin numTest.toNat tests ps inputs) cands only ps states none
        inputs fitT fitB

/-! ### Time-continuous models -/

/-- `ContinuousRegTest(initial_conditions, time_domain, parameters, input_function, bound)`:
utils/_gridsearch.py:291-325. -/
structure PContTest (K : Type) where
  mu : Par K
  test : ContTest K

/-- The test case with encoded initial conditions: _gridsearch.py:327-350. -/
def PContTest.case [Field K] [LinearOrder K] (ev : EvalAt K X S) (sim : Integrator K S) (t : PContTest K) (e : Snap K) :
    RegCase K X := (t.test.case sim e).at ev t.mu

/-- The stability limits, the test cases, the extended time domains: _base.py:688-719. With fewer time domains or input
functions than trajectories, the others are left out; the code then divides the sum of the errors by the number of all
trajectories, which does not change their order. -/
def pContCases [Field K] [LinearOrder K] [FloorRing K] (ev : EvalAt K X S) (sim : Integrator K S) (p2 : PNorm K)
    (margin testTime : K) (tests : List (PContTest K)) (ps : List (Par K)) (qs : List (Snap K))
    (us : Option (List (K → List K))) (ts : List (List K)) (R : Rom K T B) (_ : TrainData K) :
    Except Err (List (RegCase K X) × List (TrainCase K X)) :=
  match qs.mapM R.encode1 with
  | .error e => .error e
  | .ok es => match es.mapM (snapLimit margin) with
    | .error e => .error e
    | .ok Ls => match tests.mapM fun t => (R.encode1 (.vec t.test.ic)).map (t.case ev sim) with
      | .error e => .error e
      | .ok tests => match ts.mapM (extendTimes testTime) with
        | .error e => .error e
        | .ok ts => .ok (tests,
            (zip ps (zip (zip es Ls) (zip (us.elim (replicate es.length none) (·.map some)) ts))).map
              fun x => (contTrain sim p2 x.2.1.1 x.2.1.2 x.2.2.1 x.2.2.2).at ev x.1)

/-- The validated arguments; with parameters `_fix_single_trajectory` is not called: _base.py:640-671. -/
def fixPContArgs [Zero K] [LT K] [DecidableLT K] (times : OneOrMany (List K)) (qs : List (Snap K))
    (inputs : Option (OneOrMany (K → List K))) (testTime : K) :
    Except Err (List (List K) × Option (List (K → List K)) × Option (List (Snap K))) := do
  let ts ← fixTimes qs.length times
  if !checkTimes ts qs then throw .dimensionality
  let us ← fixFuns false qs.length inputs
  let U ← funInputs ts us
  if testTime < 0 then throw .value
  return (ts, us, U)

/-- `fit_regselect_continuous(candidates, train_time_domains, parameters, states, ddts, input_functions, ..)`:
_base.py:525-779. -/
def PRom.selectContinuous [Field K] [LinearOrder K] [FloorRing K] (P : ParI K X) (J : SelI K X) (ev : EvalAt K X S)
    (G : Search K) (sim : Integrator K S) (p2 : PNorm K) (cands : Cands K) (times : OneOrMany (List K))
    (R : PRom K T B X) (ps : List (Par K)) (states : List (Snap K)) (ddts : Option (List (Snap K)))
    (inputs : Option (OneOrMany (K → List K))) (fitT fitB only : Bool) (testTime margin : K) (tests : List (PContTest K)) :
    PRom K T B X × Except Err Unit :=
  if !R.rom.continuous then (R, .error .attribute)
  else if J.hasSolver R.model = false then (R, .error .attribute)
  else match fixPContArgs times states inputs testTime with
    | .error e => (R, .error e)
    | .ok (ts, us, U) => R.selectLists P J G (pContCases ev sim p2 margin testTime tests ps states us ts) cands only ps
        states ddts U fitT fitB

end Opinf
