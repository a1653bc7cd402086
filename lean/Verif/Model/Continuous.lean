import Verif.Model.Mono

/-!
# Time-continuous models

Model of `ContinuousModel`, /repo/src/opinf/models/mono/_nonparametric.py:829-1072. The numerical integration
(`scipy.integrate.solve_ivp`) is not modelled: `predict` is modelled up to the call, and the result is the list of
arguments of this call. `scipy.interpolate.CubicSpline` is a parameter.
-/

namespace Opinf

open List

variable {K : Type}

/-- What an input function returns: a number (`np.isscalar`), a one-dimensional array, or something else (a list, an
array with another number of dimensions). -/
inductive FuncVal (K : Type)
  | num (x : K)
  | vec (xs : List K)
  | other

/-- The argument `input_func`: nothing, a callable, or an array of input values. -/
inductive InputFunc (K : Type)
  | none
  | func (u : K → Except Err (FuncVal K))
  | arr (a : Arg K)

/-- `ContinuousModel.rhs(t, state, input_func)`: _nonparametric.py:909-933. Only inputs that are one-dimensional arrays
are modelled (`predict` wraps numbers as arrays). -/
def Model.crhs {S : Type} [CommSemiring K] (M : Model K S) (u : K → Except Err (FuncVal K)) (t : K) (q : List K) :
    Except Err (List K) :=
  if M.hasInputs then do
    match ← u t with
    | .vec xs => M.rhs q (some xs)
    | _ => .error .notImplemented
  else M.rhs q none

/-- `ContinuousModel.jacobian(t, state, input_func)`: _nonparametric.py:935-959. -/
def Model.cjacobian {S : Type} [Field K] (M : Model K S) (u : K → Except Err (FuncVal K)) (t : K) (q : List K) :
    Except Err (List (List K)) :=
  if M.hasInputs then do
    match ← u t with
    | .vec xs => M.jacobian q xs
    | _ => .error .notImplemented
  else M.jacobian q []

/-- The wrapper that turns numbers into arrays: _nonparametric.py:1031-1037. -/
def wrapNum (u : K → Except Err (FuncVal K)) (t : K) : Except Err (FuncVal K) := do
  match ← u t with
  | .num x => return .vec [x]
  | _ => return .other

/-- `input_func` as a function of time: _nonparametric.py:1019-1027. An array of the wrong shape raises `ValueError`. -/
def Model.inputFunction {S : Type} (M : Model K S) (spline : List K → List (List K) → Except Err (K → List K))
    (ts : List K) : InputFunc K → Except Err (K → Except Err (FuncVal K))
  | .none => .error .value
  | .func u => .ok u
  | .arr a =>
    if some (atleast2d a).1 ≠ M.m ∨ (atleast2d a).2.length ≠ ts.length then .error .value
    else (spline ts (atleast2d a).2).map fun s t => .ok (.vec (s t))

/-- The check of the value at the first time: _nonparametric.py:1029-1046. Returns the function that is used from then
on. -/
def Model.checkInputFunction {S : Type} (M : Model K S) (t0 : K) (u : K → Except Err (FuncVal K)) :
    Except Err (K → Except Err (FuncVal K)) := do
  match ← u t0 with
  | .num _ => if M.m = some 1 then return wrapNum u else throw .dimensionality
  | .vec xs => if some xs.length = M.m then return u else throw .dimensionality
  | .other => throw .dimensionality

/-- Who provides the Jacobian for the integrator. -/
inductive JacChoice (J : Type)
  | absent
  | user (j : J)
  | model

/-- The methods that use the Jacobian: _nonparametric.py:1048-1053. -/
def needsJacobian (method : Option String) : Bool :=
  method = some "BDF" || method = some "Radau" || method = some "LSODA"

/-- The arguments of `solve_ivp`: _nonparametric.py:1057-1064. -/
structure IvpCall (K J : Type) where
  /-- the function to integrate -/
  fn : K → List K → Except Err (List K)
  /-- the Jacobian, as provided by the model if `jac` is `.model` -/
  modelJac : K → List K → Except Err (List (List K))
  jac : JacChoice J
  span : K × K
  y0 : List K
  tEval : List K
  method : Option String

/-- The input function after all checks: _nonparametric.py:1018-1046. -/
def Model.processInput {S : Type} (M : Model K S) (spline : List K → List (List K) → Except Err (K → List K))
    (ts : List K) (input : InputFunc K) : Except Err (K → Except Err (FuncVal K)) :=
  if M.hasInputs then do
    let u ← M.inputFunction spline ts input
    match ts.head? with
    | none => .error .index
    | some t0 => M.checkInputFunction t0 u
  else .ok fun _ => .ok .other

/-- The check of the initial state: _nonparametric.py:1004-1009. -/
def Model.checkState0 {S : Type} (M : Model K S) : Arg K → Except Err (List K)
  | .vec q0 => if some q0.length = M.r then .ok q0 else .error .dimensionality
  | _ => .error .dimensionality

/-- `_check_inputargs(input_func, "input_func")`: _base.py:371-381 (the warning is not modelled). -/
def Model.checkInputFunc {S : Type} (M : Model K S) : InputFunc K → Except Err Unit
  | .none => if M.hasInputs then .error .value else .ok ()
  | _ => .ok ()

/-- The check of the time domain, an array: _nonparametric.py:1013-1014. -/
def timeVector : Arg K → Except Err (List K)
  | .vec ts => .ok ts
  | _ => .error .value

/-- `[t[0], t[-1]]`: _nonparametric.py:1059. -/
def timeSpan (ts : List K) : Except Err (K × K) :=
  match ts.head?, ts.getLast? with
  | some t0, some t1 => .ok (t0, t1)
  | _, _ => .error .index

/-- `ContinuousModel.predict(state0, t, input_func, **options)` up to the call of `solve_ivp`:
_nonparametric.py:1001-1064. -/
def Model.predictCall {S J : Type} [Field K] (M : Model K S)
    (spline : List K → List (List K) → Except Err (K → List K)) (state0 t : Arg K) (input : InputFunc K)
    (method : Option String) (jac : Option J) : Except Err (IvpCall K J) := do
  M.checkTrained
  let q0 ← M.checkState0 state0
  M.checkInputFunc input
  let ts ← timeVector t
  let u ← M.processInput spline ts input
  let span ← timeSpan ts
  return ⟨M.crhs u, M.cjacobian u, if needsJacobian method then .model else jac.elim .absent .user, span, q0, ts, method⟩

end Opinf
