import Verif.Model.FiniteDiff
import Verif.Model.Mono
import Verif.Model.Rom

/-!
# Training a reduced-order model

Model of `ROM.fit` of nonparametric models: /repo/src/opinf/roms/_base.py:295-435, 475-523 and
/repo/src/opinf/roms/_nonparametric.py:57-118. Trajectories and inputs are one- or two-dimensional arrays;
`np.hstack` returns a new array, so that calibrating does not change the training data. Lists of
one-dimensional arrays are not modelled as `states`. Warnings are not modelled.
-/

namespace Opinf

open List

variable {K T B S : Type}

/-! ### Arrays -/

/-- `np.hstack` of two arrays. -/
def Snap.beside : Snap K → Snap K → Except Err (Snap K)
  | .vec xs, .vec ys => .ok (.vec (xs ++ ys))
  | .mat k a, .mat l b => if a.length = b.length then .ok (.mat (k + l) (zipWith (· ++ ·) a b)) else .error .value
  | _, _ => .error .value

/-- `np.hstack`: `ValueError` without arrays or if they do not agree. -/
def hstackAll : List (Snap K) → Except Err (Snap K)
  | [] => .error .value
  | [Y] => .ok Y
  | Y :: Ys => do Y.beside (← hstackAll Ys)

/-- `Q[:, 1:]`; a one-dimensional array raises `IndexError`. -/
def Snap.tailCols : Snap K → Except Err (Snap K)
  | .vec _ => .error .index
  | .mat k rows => .ok (.mat (k - 1) (rows.map (drop 1)))

/-- `Q[:, :-1]`. -/
def Snap.initCols : Snap K → Except Err (Snap K)
  | .vec _ => .error .index
  | .mat k rows => .ok (.mat (k - 1) (rows.map (take (k - 1))))

/-- `U[..., :k]`. -/
def Snap.firstCols (k : Nat) : Snap K → Snap K
  | .vec xs => .vec (xs.take k)
  | .mat l rows => .mat (min k l) (rows.map (take k))

/-- `Q.shape[1]`; only used for two-dimensional arrays. -/
def Snap.ncolumns : Snap K → Nat
  | .vec xs => xs.length
  | .mat k _ => k

/-- The same array given by its columns, as the methods of a model are modelled. -/
def Snap.toArg [Zero K] : Snap K → Arg K
  | .vec xs => .vec xs
  | .mat k rows => .mat rows.length (transpose k rows)

/-! ### The reduced-order model -/

/-- What is used of a time derivative estimator: `estimate(states)` and `estimate(states, inputs)`. -/
structure DdtI (K : Type) where
  estimate : Snap K → Except Err (Snap K × Snap K)
  estimateWith : Snap K → Snap K → Except Err (Snap K × Snap K × Snap K)

/-- The two-dimensional array given by a matrix. -/
def Mat.toSnap (A : Mat K) : Snap K := .mat A.ncols A.rows

/-- A `UniformFiniteDifferencer`: /repo/src/opinf/ddt/_finite_difference.py:859-884; one-dimensional states raise
`DimensionalityError` (/repo/src/opinf/ddt/_base.py:103-104). -/
def fdDdt [Field K] [DecidableEq K] (s : Scheme) (dt : K) : DdtI K where
  estimate Q := match Q with
    | .vec _ => .error .dimensionality
    | .mat k rows => (s.estimate dt ⟨rows.length, k, rows⟩ none).map fun x => (x.1.toSnap, x.2.1.toSnap)
  estimateWith Q U := match Q with
    | .vec _ => .error .dimensionality
    | .mat k rows =>
      let V : InputArr K := match U with
        | .vec u => .vec u
        | .mat l us => .mat ⟨us.length, l, us⟩
      match s.estimate dt ⟨rows.length, k, rows⟩ (some V) with
      | .error e => .error e
      | .ok (Y, Z, some W) => .ok (Y.toSnap, Z.toSnap, W.toSnap)
      | .ok (_, _, none) => .error .value

/-- A nonparametric `ROM`: _base.py:45-103. The estimator is dropped if the model is fully discrete (86-91). -/
structure FRom (K T B S : Type) where
  rom : Rom K T B
  ddt : Option (DdtI K)
  model : Model K S

/-- `ROM(model, lifter=.., transformer=.., basis=.., ddt_estimator=..)`. -/
def FRom.make (rom : Rom K T B) (ddt : Option (DdtI K)) (model : Model K S) : FRom K T B S :=
  ⟨rom, if rom.continuous then ddt else none, model⟩

/-! ### Processing the training data -/

/-- Apply `f` to the states and `g` to the left-hand sides, if there are any. -/
def onBoth (f g : Snap K → Except Err (Snap K)) (states : List (Snap K)) (lhs : Option (List (Snap K))) :
    Except Err (List (Snap K) × Option (List (Snap K))) :=
  match states.mapM f with
  | .error e => .error e
  | .ok Y => match lhs with
    | none => .ok (Y, none)
    | some Z => (Z.mapM g).map fun Z => (Y, some Z)

/-- Lifting the left-hand sides: _base.py:383-390; `zip` stops at the shorter list. -/
def liftLhs (L : LiftI K) (continuous : Bool) (states lhs : List (Snap K)) : Except Err (List (Snap K)) :=
  if continuous then (zip states lhs).mapM fun x => L.liftDdts x.1 x.2 else lhs.mapM L.lift

/-- Lifting: _base.py:381-391. -/
def Rom.liftTrain (R : Rom K T B) (states : List (Snap K)) (lhs : Option (List (Snap K))) :
    Except Err (List (Snap K) × Option (List (Snap K))) :=
  match R.lifter with
  | none => .ok (states, lhs)
  | some L => match lhs with
    | none => (states.mapM L.lift).map fun Y => (Y, none)
    | some Z => match liftLhs L R.continuous states Z with
      | .error e => .error e
      | .ok Z => (states.mapM L.lift).map fun Y => (Y, some Z)

/-- `if fit: x.fit(np.hstack(states))`: _base.py:395-396, 406-408. -/
def fitStacked {X : Type} (fit : X → Snap K → X × Except Err Unit) (x : X) (flag : Bool) (states : List (Snap K)) :
    X × Except Err Unit :=
  if flag then match hstackAll states with
    | .error e => (x, .error e)
    | .ok Y => fit x Y
  else (x, .ok ())

/-- Preprocessing: _base.py:394-402. -/
def Rom.tfTrain (R : Rom K T B) (fit : Bool) (states : List (Snap K)) (lhs : Option (List (Snap K))) :
    Rom K T B × Except Err (List (Snap K) × Option (List (Snap K))) :=
  match R.transformer with
  | none => (R, .ok (states, lhs))
  | some (I, t) => match fitStacked I.fit t fit states with
    | (t, .error e) => ({ R with transformer := some (I, t) }, .error e)
    | (t, .ok ()) => ({ R with transformer := some (I, t) },
        onBoth (fun Q => (I.transform t false Q).2) (fun Z => (tfLhs I t false R.continuous Z).2) states lhs)

/-- Dimensionality reduction: _base.py:405-411. -/
def Rom.basisTrain (R : Rom K T B) (fit : Bool) (states : List (Snap K)) (lhs : Option (List (Snap K))) :
    Rom K T B × Except Err (List (Snap K) × Option (List (Snap K))) :=
  match R.basis with
  | none => (R, .ok (states, lhs))
  | some (I, b) => match fitStacked I.fit b fit states with
    | (b, .error e) => ({ R with basis := some (I, b) }, .error e)
    | (b, .ok ()) => ({ R with basis := some (I, b) }, onBoth (I.compress b) (I.compress b) states lhs)

/-- The first three steps of `_process_training_data`: _base.py:380-411. -/
def Rom.reduceTrain (R : Rom K T B) (fitT fitB : Bool) (states : List (Snap K)) (lhs : Option (List (Snap K))) :
    Rom K T B × Except Err (List (Snap K) × Option (List (Snap K))) :=
  match R.liftTrain states lhs with
  | .error e => (R, .error e)
  | .ok (Y, Z) => match R.tfTrain fitT Y Z with
    | (R, .error e) => (R, .error e)
    | (R, .ok (Y, Z)) => R.basisTrain fitB Y Z

/-- Processed training data: states, left-hand sides, inputs. -/
structure TrainData (K : Type) where
  states : List (Snap K)
  lhs : List (Snap K)
  inputs : Option (List (Snap K))
  deriving DecidableEq

/-- Estimating time derivatives: _base.py:415-426; `zip` stops at the shorter list, and unpacking no results at
all raises `ValueError`. -/
def estimateTrain (E : DdtI K) (states : List (Snap K)) (inputs : Option (List (Snap K))) :
    Except Err (TrainData K) :=
  match inputs with
  | none => match states.mapM E.estimate with
    | .error e => .error e
    | .ok [] => .error .value
    | .ok xs => .ok ⟨xs.map Prod.fst, xs.map Prod.snd, none⟩
  | some us => match (zip states us).mapM fun x => E.estimateWith x.1 x.2 with
    | .error e => .error e
    | .ok [] => .error .value
    | .ok xs => .ok ⟨xs.map fun x => x.1, xs.map fun x => x.2.1, some (xs.map fun x => x.2.2)⟩

/-- The left-hand sides of a fully discrete model: _base.py:428-434. -/
def shiftTrain (states : List (Snap K)) (inputs : Option (List (Snap K))) : Except Err (TrainData K) :=
  match states.mapM Snap.tailCols with
  | .error e => .error e
  | .ok Z => match states.mapM Snap.initCols with
    | .error e => .error e
    | .ok Y => .ok ⟨Y, Z, inputs.map fun us => zipWith (fun Q U => U.firstCols Q.ncolumns) Y us⟩

/-- The last step of `_process_training_data`: _base.py:414-435. Without an estimator `None.estimate` raises
`AttributeError`. -/
def FRom.lhsTrain (R : FRom K T B S) (states : List (Snap K)) (lhs inputs : Option (List (Snap K))) :
    Except Err (TrainData K) :=
  match lhs with
  | some Z => .ok ⟨states, Z, inputs⟩
  | none => if R.rom.continuous then match R.ddt with
      | none => .error .attribute
      | some E => estimateTrain E states inputs
    else shiftTrain states inputs

/-- `_process_training_data(states, lhs, inputs, fit_transformer, fit_basis)`: _base.py:325-435. -/
def FRom.process (R : FRom K T B S) (states : List (Snap K)) (lhs inputs : Option (List (Snap K)))
    (fitT fitB : Bool) : FRom K T B S × Except Err (TrainData K) :=
  match R.rom.reduceTrain fitT fitB states lhs with
  | (rom, .error e) => ({ R with rom := rom }, .error e)
  | (rom, .ok (Y, Z)) => ({ R with rom := rom }, FRom.lhsTrain { R with rom := rom } Y Z inputs)

/-! ### Fitting -/

/-- The argument `states` of `fit`: one trajectory or a list of trajectories; `lhs` and `inputs` likewise. -/
inductive TrainArg (K : Type)
  | one (Q : Snap K)
  | many (Qs : List (Snap K))
  deriving DecidableEq

/-- `_check_fit_args(lhs, inputs)`: _base.py:295-309. -/
def FRom.checkFitArgs (R : FRom K T B S) (noLhs noInputs : Bool) : Except Err Unit :=
  if noLhs && R.rom.continuous && R.ddt.isNone then .error .value
  else if noInputs && R.model.hasInputs then .error .value
  else .ok ()

/-- The list of trajectories that `_fix_single_trajectory` (_base.py:312-323) makes of an argument, given
whether `states` is one trajectory. An array given where a list is expected is iterated over by rows; this is
not modelled. -/
def TrainArg.toList (single : Bool) : TrainArg K → Except Err (List (Snap K))
  | .one Q => if single then .ok [Q] else .error .type
  | .many Qs => if single then .error .type else .ok Qs

/-- `toList` of an optional argument. -/
def optList (single : Bool) : Option (TrainArg K) → Except Err (Option (List (Snap K)))
  | none => .ok none
  | some a => (a.toList single).map some

/-- Whether `states` is one trajectory: `states[0].ndim == 1`, _base.py:317; an empty list has no first entry. -/
def TrainArg.isSingle : TrainArg K → Except Err Bool
  | .one _ => .ok true
  | .many [] => .error .index
  | .many _ => .ok false

/-- `model.fit(states, lhs, inputs)` on the concatenated data; `DiscreteModel.fit` gets the left-hand sides as
`nextstates`: _base.py:509-516. -/
def fitModel [CommRing K] (I : SolverI K S) (M : Model K S) (continuous : Bool) (Y Z : Snap K)
    (U : Option (Snap K)) : Model K S × Except Err Unit :=
  if continuous then M.fit I Y.toArg Z.toArg (U.map Snap.toArg)
  else match Y.toArg with
    | .mat n X => M.fitDiscrete I n X (some Z.toArg) (U.map Snap.toArg)
    | _ => (M, .error .index)

/-- `None if inputs is None else np.hstack(inputs)`: _base.py:510. -/
def stackInputs : Option (List (Snap K)) → Except Err (Option (Snap K))
  | none => .ok none
  | some us => (hstackAll us).map some

/-- The concatenated data: _base.py:510-516. -/
def TrainData.stacked (d : TrainData K) : Except Err (Snap K × Snap K × Option (Snap K)) := do
  let U ← stackInputs d.inputs
  let Y ← hstackAll d.states
  let Z ← hstackAll d.lhs
  return (Y, Z, U)

/-- `_fit_model` after the arguments have been brought into the form of lists: _base.py:501-523. -/
def FRom.fitLists [CommRing K] (I : SolverI K S) (R : FRom K T B S) (states : List (Snap K))
    (lhs inputs : Option (List (Snap K))) (fitT fitB : Bool) : FRom K T B S × Except Err Unit :=
  match R.process states lhs inputs fitT fitB with
  | (R, .error e) => (R, .error e)
  | (R, .ok d) => match d.stacked with
    | .error e => (R, .error e)
    | .ok (Y, Z, U) => ({ R with model := (fitModel I R.model R.rom.continuous Y Z U).1 },
        (fitModel I R.model R.rom.continuous Y Z U).2)

/-- The arguments as lists: _base.py:495-499. -/
def fixLists (states : TrainArg K) (lhs inputs : Option (TrainArg K)) :
    Except Err (List (Snap K) × Option (List (Snap K)) × Option (List (Snap K))) := do
  let single ← states.isSingle
  let Q ← states.toList single
  let Z ← optList single lhs
  let U ← optList single inputs
  return (Q, Z, U)

/-- `ROM.fit(states, lhs, inputs, fit_transformer, fit_basis)`: _nonparametric.py:57-118. -/
def FRom.fit [CommRing K] (I : SolverI K S) (R : FRom K T B S) (states : TrainArg K)
    (lhs inputs : Option (TrainArg K)) (fitT fitB : Bool) : FRom K T B S × Except Err Unit :=
  match R.checkFitArgs lhs.isNone inputs.isNone with
  | .error e => (R, .error e)
  | .ok () => match fixLists states lhs inputs with
    | .error e => (R, .error e)
    | .ok (Q, Z, U) => R.fitLists I Q Z U fitT fitB

end Opinf
