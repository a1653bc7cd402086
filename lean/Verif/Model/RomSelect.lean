import Verif.Model.RegSelect
import Verif.Model.RomFit
import Mathlib.Algebra.Order.Floor.Defs

/-!
# Selecting the regularization of a reduced-order model

Model of `ROM.fit_regselect_discrete` and `ROM.fit_regselect_continuous` of nonparametric models, from the training
data in the original state space on: /repo/src/opinf/roms/_base.py:437-473, 525-987. The selection itself is in
`Verif/Model/RegSelect.lean`. Solvers without a regularizer are represented by a model without a solver; both raise
`AttributeError`. Test cases with a parameter value and test cases of the wrong class are not modelled.
-/

namespace Opinf

open List

variable {K T B S : Type}

/-! ### Common parts -/

/-- `_fit_model(.., solver_only=True)` followed by the selection: _base.py:501-523, 677-779, 900-987. `cases` are the
test cases and training trajectories, made after the reduced-order model is calibrated. -/
def FRom.selectLists [Field K] [LinearOrder K] (I : SolverI K S) (setReg : S → Point K → S × Except Err Unit)
    (G : Search K) (cases : Rom K T B → TrainData K → Except Err (List (RegCase K (Model K S)) × List (TrainCase K (Model K S))))
    (cands : Cands K) (only : Bool) (R : FRom K T B S) (states : List (Snap K)) (lhs inputs : Option (List (Snap K)))
    (fitT fitB : Bool) : FRom K T B S × Except Err Unit :=
  match R.checkFitArgs lhs.isNone inputs.isNone with
  | .error e => (R, .error e)
  | .ok () => match R.process states lhs inputs fitT fitB with
    | (R, .error e) => (R, .error e)
    | (R, .ok d) => match d.stacked with
      | .error e => (R, .error e)
      | .ok (Y, Z, U) =>
        ({ R with model := (regselect I setReg G (cases R.rom d) cands only R.model Y.toArg Z.toArg
              (U.map Snap.toArg)).1 },
          (regselect I setReg G (cases R.rom d) cands only R.model Y.toArg Z.toArg (U.map Snap.toArg)).2)

/-! ### Fully discrete models -/

/-- `DiscreteRegTest(initial_conditions, niters, inputs=.., bound=..)`: utils/_gridsearch.py:232-262. -/
structure DiscTest (K : Type) where
  ic : List K
  niters : Int
  inputs : PredInput K
  bound : Option K

/-- The test case with encoded initial conditions: _gridsearch.py:264-271. `predict` rejects initial conditions that
are not one-dimensional. -/
def DiscTest.case [Field K] [LinearOrder K] (t : DiscTest K) : Snap K → RegCase K (Model K S)
  | .vec q0 => discreteTest q0 t.niters t.inputs t.bound
  | .mat _ _ => ⟨fun _ => .error .dimensionality, fun _ => false⟩

/-- `_process_test_cases`: _base.py:437-457. -/
def Rom.discTests [Field K] [LinearOrder K] (R : Rom K T B) (tests : List (DiscTest K)) :
    Except Err (List (RegCase K (Model K S))) :=
  tests.mapM fun t => (R.encode1 (.vec t.ic)).map t.case

/-- One training trajectory, given by its reduced states: _base.py:459-473, 913-930. The mean along the second axis
of a one-dimensional array raises. -/
def discTrain [Field K] [LinearOrder K] (sqrt : K → K) (margin : K) (numTest : Nat) (Y : Snap K) (U : PredInput K) :
    Except Err (TrainCase K (Model K S)) :=
  match Y with
  | .vec _ => .error .value
  | .mat k rows => (stabilityLimit rows.length margin (transpose k rows)).map fun L =>
      discreteCase sqrt rows.length L (transpose k rows) numTest U

/-- `[None] * len(states_)` or the given inputs: _base.py:928-929. -/
def predInputs [Zero K] (n : Nat) : Option (List (Snap K)) → List (PredInput K)
  | none => replicate n .none
  | some us => us.map fun u => .arr u.toArg

/-- The limits come first, then the test cases: _base.py:911-930. `d.states` are the processed training states,
`us` the inputs as given. -/
def discCases [Field K] [LinearOrder K] (sqrt : K → K) (margin : K) (numTest : Nat) (tests : List (DiscTest K))
    (us : Option (List (Snap K))) (R : Rom K T B) (d : TrainData K) :
    Except Err (List (RegCase K (Model K S)) × List (TrainCase K (Model K S))) :=
  match (zip d.states (predInputs d.states.length us)).mapM fun x => discTrain sqrt margin numTest x.1 x.2 with
  | .error e => .error e
  | .ok trains => (R.discTests tests).map fun tests => (tests, trains)

/-- The check of the inputs: _base.py:881-893. -/
def checkSelInputs (states : List (Snap K)) (numTest : Nat) : Option (List (Snap K)) → Except Err Unit
  | none => .ok ()
  | some us => if us.length ≠ states.length then .error .dimensionality
    else if (zip states us).any fun x => decide (x.2.ncolumns < x.1.ncolumns + numTest) then .error .value
    else .ok ()

/-- `fit_regselect_discrete(candidates, None, states, inputs, ..)`: _base.py:781-987. -/
def FRom.selectDiscrete [Field K] [LinearOrder K] (I : SolverI K S) (setReg : S → Point K → S × Except Err Unit)
    (G : Search K) (sqrt : K → K) (cands : Cands K) (R : FRom K T B S) (states : TrainArg K)
    (inputs : Option (TrainArg K)) (fitT fitB only : Bool) (numTest : Int) (margin : K) (tests : List (DiscTest K)) :
    FRom K T B S × Except Err Unit :=
  if R.rom.continuous then (R, .error .attribute)
  else if R.model.solver.isNone then (R, .error .attribute)
  else match fixLists states none inputs with
    | .error e => (R, .error e)
    | .ok (qs, _, us) => if numTest < 0 then (R, .error .value)
      else match checkSelInputs qs numTest.toNat us with
        | .error e => (R, .error e)
        | .ok () => R.selectLists I setReg G (discCases sqrt margin numTest.toNat tests us) cands only qs none us
            fitT fitB

/-! ### Time-continuous models -/

/-- `model.predict(q0, t, input_func)` of a time-continuous model, from the initial value `q0` at the times `t`; the
result may be shorter than `t` if the integration is aborted. -/
abbrev Integrator (K S : Type) := Model K S → List K → List K → Option (K → List K) → Except Err (Traj K)

/-- An argument that may be one object or a sequence of them. -/
inductive OneOrMany (α : Type)
  | one (a : α)
  | many (as : List α)

/-- `ContinuousRegTest(initial_conditions, time_domain, input_function=.., bound=..)`: _gridsearch.py:291-325. -/
structure ContTest (K : Type) where
  ic : List K
  times : List K
  input : Option (K → List K)
  bound : Option K

/-- The test case with encoded initial conditions: _gridsearch.py:327-350. -/
def ContTest.case [Field K] [LinearOrder K] (sim : Integrator K S) (t : ContTest K) : Snap K → RegCase K (Model K S)
  | .vec q0 => ⟨fun M => sim M q0 t.times t.input, unstableTestCont t.times.length q0 t.bound⟩
  | .mat _ _ => ⟨fun _ => .error .dimensionality, fun _ => false⟩

/-- `_process_test_cases`: _base.py:437-457. -/
def Rom.contTests [Field K] [LinearOrder K] (sim : Integrator K S) (R : Rom K T B) (tests : List (ContTest K)) :
    Except Err (List (RegCase K (Model K S))) :=
  tests.mapM fun t => (R.encode1 (.vec t.ic)).map (t.case sim)

/-- `Lp_error(Q, solution[:, :trainsize], t[:trainsize])[1]`: _base.py:764-767. If the solution has NaN or infinite
entries there, so has the error. -/
def contError [Field K] [LinearOrder K] (p2 : PNorm K) (r : Nat) (Q : List (List K)) (t : List K) (sol : Traj K) :
    Except Err (Val K) :=
  if (sol.take Q.length).any (fun c => c.any fun x => decide (x = .nan)) then .ok .nan
  else if (sol.take Q.length).any (fun c => c.any fun x => !x.isFinite) then .ok .inf
  else (LpError (.fin p2) (.times (t.take Q.length)) (.mat r Q) (.mat r (Traj.nums (sol.take Q.length)))).map
    Prod.snd

/-- One entry of the stability limits: _base.py:459-473. The mean along the second axis of a one-dimensional array
raises. -/
def snapLimit [Field K] [LinearOrder K] (margin : K) : Snap K → Except Err (Val K)
  | .vec _ => .error .value
  | .mat k rows => stabilityLimit rows.length margin (transpose k rows)

/-- The columns of a two-dimensional array, and the number of its rows. -/
def Snap.colsOf [Zero K] : Snap K → Nat × List (List K)
  | .vec xs => (1, xs.map fun x => [x])
  | .mat k rows => (rows.length, transpose k rows)

/-- One training trajectory with reduced states `Q`, stability limit, input function and (extended) time domain:
_base.py:695-700, 749-768. -/
def contTrain [Field K] [LinearOrder K] (sim : Integrator K S) (p2 : PNorm K) (Q : Snap K) (L : Val K)
    (u : Option (K → List K)) (t : List K) : TrainCase K (Model K S) where
  predict M := sim M (Q.colsOf.2.headD []) t u
  unstable := unstableCont (meanCol Q.colsOf.1 Q.colsOf.2) L t.length
  error := contError p2 Q.colsOf.1 Q.colsOf.2 t

/-- `np.linspace(a, b, n)`. -/
def linspace [Field K] (a b : K) (n : Nat) : List K :=
  (range n).map fun i : Nat => a + (i : K) * ((b - a) / ((n - 1 : Nat) : K))

/-- `np.mean(np.diff(t))`. -/
def meanStep [Field K] (t : List K) : K :=
  (zipWith (fun a b => b - a) t t.tail).sum / ((t.length - 1 : Nat) : K)

/-- `t_train[-1] + np.linspace(dt, dt + T, int(T / dt))` after `t_train`: _base.py:703-713. With fewer than two times
`dt` is NaN and `int` raises `ValueError`; with `dt = 0` it raises `OverflowError` (here `ValueError`); a negative
number of times raises `ValueError`. -/
def extendTimes [Field K] [LinearOrder K] [FloorRing K] (T : K) (t : List K) : Except Err (List K) :=
  if 0 < T then
    if t.length < 2 then .error .value
    else if meanStep t = 0 then .error .value
    else if meanStep t < 0 then (if ⌈T / meanStep t⌉ < 0 then .error .value else .ok t)
    else .ok (t ++ (linspace (meanStep t) (meanStep t + T) ⌊T / meanStep t⌋.toNat).map (t.getLastD 0 + ·))
  else .ok t

/-- `np.column_stack([u(tt) for tt in t])`: _base.py:660-663; nothing to stack, or columns of different lengths, raise
`ValueError`. -/
def evalInputs [Zero K] (u : K → List K) (t : List K) : Except Err (Snap K) :=
  match t.map u with
  | [] => .error .value
  | c :: cs => if cs.all fun d => decide (d.length = c.length)
    then .ok (.mat t.length (transpose c.length (c :: cs))) else .error .value

/-- The time domains as a list: _base.py:646-647. -/
def fixTimes (n : Nat) : OneOrMany (List K) → Except Err (List (List K))
  | .one [] => .error .index
  | .one t => .ok (replicate n t)
  | .many [] => .error .index
  | .many ts => .ok ts

/-- The input functions as a list: _base.py:640-643, 653-659. For a single trajectory the argument is put into a list
first, so that a list of functions becomes a list of lists. -/
def fixFuns (single : Bool) (n : Nat) : Option (OneOrMany (K → List K)) → Except Err (Option (List (K → List K)))
  | none => .ok none
  | some (.one u) => .ok (some (if single then [u] else replicate n u))
  | some (.many us) => if single then .error .type else match us with
    | [] => .error .index
    | us => .ok (some us)

/-- The inputs over the time domains: _base.py:660-665. -/
def funInputs [Zero K] (ts : List (List K)) : Option (List (K → List K)) → Except Err (Option (List (Snap K)))
  | none => .ok none
  | some us => ((zip us ts).mapM fun x => evalInputs x.1 x.2).map some

/-- The stability limits, the test cases, the extended time domains: _base.py:688-719. With fewer time domains than
trajectories, the others are left out; the code then divides the sum of the errors by the number of all
trajectories, which does not change their order. -/
def contCases [Field K] [LinearOrder K] [FloorRing K] (sim : Integrator K S) (p2 : PNorm K) (margin testTime : K)
    (tests : List (ContTest K)) (qs : List (Snap K)) (us : Option (List (K → List K))) (ts : List (List K))
    (R : Rom K T B) (_ : TrainData K) : Except Err (List (RegCase K (Model K S)) × List (TrainCase K (Model K S))) :=
  match qs.mapM R.encode1 with
  | .error e => .error e
  | .ok es => match es.mapM (snapLimit margin) with
    | .error e => .error e
    | .ok Ls => match R.contTests sim tests with
      | .error e => .error e
      | .ok tests => match ts.mapM (extendTimes testTime) with
        | .error e => .error e
        | .ok ts => .ok (tests, (zip (zip es Ls) (zip (us.elim (replicate es.length none) (·.map some)) ts)).map
            fun x => contTrain sim p2 x.1.1 x.1.2 x.2.1 x.2.2)

/-- The check of the time domains: _base.py:648-652; `zip` stops at the shorter list. -/
def checkTimes (ts : List (List K)) (qs : List (Snap K)) : Bool :=
  (zip ts qs).all fun x => decide (x.1.length = x.2.ncolumns)

/-- The validated arguments: _base.py:639-671. -/
def fixContArgs [Zero K] [LT K] [DecidableLT K] (times : OneOrMany (List K)) (states : TrainArg K)
    (ddts : Option (TrainArg K)) (inputs : Option (OneOrMany (K → List K))) (testTime : K) :
    Except Err (List (Snap K) × Option (List (Snap K)) × List (List K) × Option (List (K → List K)) ×
      Option (List (Snap K))) := do
  let single ← states.isSingle
  let (qs, zs, _) ← fixLists states ddts none
  let ts ← fixTimes qs.length times
  if !checkTimes ts qs then throw .dimensionality
  let us ← fixFuns single qs.length inputs
  let U ← funInputs ts us
  if testTime < 0 then throw .value
  return (qs, zs, ts, us, U)

/-- `fit_regselect_continuous(candidates, train_time_domains, None, states, ddts, input_functions, ..)`:
_base.py:525-779. -/
def FRom.selectContinuous [Field K] [LinearOrder K] [FloorRing K] (I : SolverI K S)
    (setReg : S → Point K → S × Except Err Unit) (G : Search K) (sim : Integrator K S) (p2 : PNorm K)
    (cands : Cands K) (times : OneOrMany (List K)) (R : FRom K T B S) (states : TrainArg K)
    (ddts : Option (TrainArg K)) (inputs : Option (OneOrMany (K → List K))) (fitT fitB only : Bool)
    (testTime margin : K) (tests : List (ContTest K)) : FRom K T B S × Except Err Unit :=
  if !R.rom.continuous then (R, .error .attribute)
  else if R.model.solver.isNone then (R, .error .attribute)
  else match fixContArgs times states ddts inputs testTime with
    | .error e => (R, .error e)
    | .ok (qs, zs, ts, us, U) =>
      R.selectLists I setReg G (contCases sim p2 margin testTime tests qs us ts) cands only qs zs U fitT fitB

end Opinf
