import Verif.Model.ParamModel
import Verif.Model.RomFit

/-!
# Parametric reduced-order models

Model of `ParametricROM`: /repo/src/opinf/roms/_parametric.py:14-144, with the parts of `_BaseROM` used there
(/repo/src/opinf/roms/_base.py:295-309, 325-435, 475-523). Trajectories and inputs are one- or two-dimensional
arrays, `parameters`, `states`, `lhs` and `inputs` are lists. Warnings are not modelled.
-/

namespace Opinf

open List

variable {K T B S X : Type}

/-- What is used of a parametric model: whether it has inputs, `fit(parameters, states, lhs, inputs)` as in
`_ParametricModel` (/repo/src/opinf/models/mono/_parametric.py:326-392) and, for fully discrete models,
`predict(parameter, state0, niters, inputs)`. -/
structure ParI (K X : Type) where
  hasInputs : X → Bool
  fit : X → List (Par K) → List (Arg K) → List (Arg K) → Option (List (Arg K)) → X × Except Err Unit
  predict : X → Par K → List K → Int → PredInput K → X × Except Err (List (List K))

/-- `ParametricContinuousModel` and `ParametricDiscreteModel`. -/
def pModelI [CommRing K] [LinearOrder K] (lib : ItpLib K) (I : SolverI K S) : ParI K (PModel K S) where
  hasInputs M := M.hasInputs
  fit M := M.fit lib I
  predict M := M.predict lib

/-- `InterpContinuousModel` and `InterpDiscreteModel`. -/
def iModelI [CommRing K] [LinearOrder K] (lib : ItpLib K) (plain : S) (l2 : Int → S) (I : SolverI K S) :
    ParI K (IModel K S) where
  hasInputs M := M.base.hasInputs
  fit M := M.fit lib plain l2 I
  predict M mu q0 n u := ({ M with base := (M.base.predict lib mu q0 n u).1 }, (M.base.predict lib mu q0 n u).2)

/-- A `ParametricROM`: _parametric.py:42-55. -/
structure PRom (K T B X : Type) where
  rom : Rom K T B
  ddt : Option (DdtI K)
  model : X

/-- `ParametricROM(model, lifter=.., transformer=.., basis=.., ddt_estimator=..)`; the estimator is dropped if the
model is fully discrete: _base.py:86-91. -/
def PRom.make (rom : Rom K T B) (ddt : Option (DdtI K)) (model : X) : PRom K T B X :=
  ⟨rom, if rom.continuous then ddt else none, model⟩

/-- A model that is not used. -/
def noModel : Model K Unit := ⟨[], false, none, none, true, none⟩

/-- `_process_training_data(states, lhs, inputs, fit_transformer, fit_basis)`: _base.py:325-435. It is a method of the
common base class of both kinds of reduced-order models and does not use the model. -/
def PRom.process (R : PRom K T B X) (states : List (Snap K)) (lhs inputs : Option (List (Snap K)))
    (fitT fitB : Bool) : PRom K T B X × Except Err (TrainData K) :=
  match (FRom.mk R.rom R.ddt (noModel (K := K))).process states lhs inputs fitT fitB with
  | (F, out) => ({ R with rom := F.rom }, out)

/-- `_check_fit_args(lhs, inputs)`: _base.py:295-309. -/
def PRom.checkFitArgs (P : ParI K X) (R : PRom K T B X) (noLhs noInputs : Bool) : Except Err Unit :=
  if noLhs && R.rom.continuous && R.ddt.isNone then .error .value
  else if noInputs && P.hasInputs R.model then .error .value
  else .ok ()

/-- `U[..., : Q.shape[1]]`; one-dimensional states raise `IndexError`. -/
def cutTo (U Q : Snap K) : Except Err (Snap K) :=
  match Q with
  | .vec _ => .error .index
  | .mat k _ => .ok (U.firstCols k)

/-- The inputs in `fit` of a fully discrete parametric model; `zip` stops at the shorter list:
/repo/src/opinf/models/mono/_parametric.py:595-596. -/
def cutInputs (states : List (Snap K)) : Option (List (Snap K)) → Except Err (Option (List (Snap K)))
  | none => .ok none
  | some us => ((zip us states).mapM fun x => cutTo x.1 x.2).map some

/-- `model.fit(parameters, states, lhs, inputs)`; the fully discrete models cut the inputs:
/repo/src/opinf/models/mono/_parametric.py:592-597. -/
def ParI.train [Zero K] (P : ParI K X) (M : X) (continuous : Bool) (ps : List (Par K)) (d : TrainData K) :
    X × Except Err Unit :=
  match (if continuous then .ok d.inputs else cutInputs d.states d.inputs) with
  | .error e => (M, .error e)
  | .ok us => P.fit M ps (d.states.map Snap.toArg) (d.lhs.map Snap.toArg) (us.map fun us => us.map Snap.toArg)

/-- `ParametricROM.fit(parameters, states, lhs, inputs, fit_transformer, fit_basis)`: _parametric.py:58-117,
_base.py:475-523. -/
def PRom.fit [Zero K] (P : ParI K X) (R : PRom K T B X) (ps : List (Par K)) (states : List (Snap K))
    (lhs inputs : Option (List (Snap K))) (fitT fitB : Bool) : PRom K T B X × Except Err Unit :=
  match R.checkFitArgs P lhs.isNone inputs.isNone with
  | .error e => (R, .error e)
  | .ok () => match R.process states lhs inputs fitT fitB with
    | (R, .error e) => (R, .error e)
    | (R, .ok d) => ({ R with model := (P.train R.model R.rom.continuous ps d).1 },
        (P.train R.model R.rom.continuous ps d).2)

/-- The two-dimensional array with the given columns, of length `r`. -/
def columnsSnap [Zero K] (r : Nat) (cols : List (List K)) : Snap K := .mat cols.length (transpose r cols)

/-- `model.predict(parameter, state0, niters, inputs)` of a fully discrete model for an array; a two-dimensional
initial state raises `DimensionalityError`. -/
def ParI.predictArr [Zero K] (P : ParI K X) (M : X) (mu : Par K) (niters : Int) (inputs : PredInput K) (z : Snap K) :
    Except Err (Snap K) :=
  match z with
  | .vec z => ((P.predict M mu z niters inputs).2).map (columnsSnap z.length)
  | .mat _ _ => .error .dimensionality

/-- `ParametricROM.predict(parameter, state0, niters, inputs)` with a fully discrete model: _parametric.py:120-144. -/
def PRom.predict [Zero K] (P : ParI K X) (R : PRom K T B X) (mu : Par K) (state0 : Snap K) (niters : Int)
    (inputs : PredInput K) : Except Err (Snap K) :=
  R.rom.predict (P.predictArr R.model mu niters inputs) state0

end Opinf
