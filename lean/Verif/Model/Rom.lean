import Verif.Model.Transform
import Verif.Model.Basis
import Verif.Model.Lift

/-!
# Reduced-order models: encoding and decoding

Model of `_BaseROM` in /repo/src/opinf/roms/_base.py:158-292 and of the `predict` methods in
/repo/src/opinf/roms/_nonparametric.py:326-348 and /repo/src/opinf/roms/_parametric.py:120-144. The lifter,
the transformer and the basis are arbitrary objects with the methods of the respective template; the model is
represented by its `predict` method. Arrays that `lift`, `compress` and `decompress` return are new arrays (true
of all the classes of the package).
-/

namespace Opinf

open List

variable {K : Type}

/-- The methods of a lifter: /repo/src/opinf/lift/_base.py. -/
structure LiftI (K : Type) where
  lift : Snap K → Except Err (Snap K)
  liftDdts : Snap K → Snap K → Except Err (Snap K)
  unlift : Snap K → Except Err (Snap K)

/-- The rows of an array; a one-dimensional array has one entry per row. -/
def Snap.rowLists : Snap K → List (List K)
  | .vec xs => xs.map fun x => [x]
  | .mat _ rows => rows

/-- An array like `Y` with other rows. -/
def Snap.withRows (Y : Snap K) (rows : List (List K)) : Snap K :=
  match Y with
  | .vec _ => .vec rows.flatten
  | .mat k _ => .mat k rows

/-- A lifter given by its action on rows. Derivatives must have the number of dimensions of the states
(numpy would broadcast them otherwise). -/
def rowLifter (lift : List (List K) → Except Err (List (List K)))
    (ddts : List (List K) → List (List K) → Except Err (List (List K)))
    (unlift : List (List K) → Except Err (List (List K))) : LiftI K where
  lift Y := (lift Y.rowLists).map Y.withRows
  liftDdts Y D := match Y, D with
    | .vec _, .mat _ _ => .error .value
    | .mat _ _, .vec _ => .error .value
    | _, _ => (ddts Y.rowLists D.rowLists).map Y.withRows
  unlift L := (unlift L.rowLists).map L.withRows

/-- `QuadraticLifter`: /repo/src/opinf/lift/_polynomial.py. -/
def quadLifter [Semiring K] : LiftI K := rowLifter (fun Q => .ok (quadLift Q)) quadLiftDdts quadUnlift

/-- `PolynomialLifter`: /repo/src/opinf/lift/_polynomial.py. -/
def polyLifter [Field K] (pw : PowFn K) (orders : List ℚ) : LiftI K :=
  rowLifter (polyLift pw orders) (polyLiftDdts pw orders) (polyUnlift pw orders)

/-- The parts of a ROM (apart from the model), and whether the model is time-continuous. -/
structure Rom (K T B : Type) where
  lifter : Option (LiftI K)
  transformer : Option (TfI K T × T)
  basis : Option (BasI K B × B)
  continuous : Bool

variable {T B : Type}

/-- Lifting in `encode`: _base.py:194-201. -/
def Rom.liftStep (R : Rom K T B) (states : Snap K) (lhs : Option (Snap K)) :
    Except Err (Snap K × Option (Snap K)) :=
  match R.lifter with
  | none => .ok (states, lhs)
  | some L => match lhs with
    | none => do return (← L.lift states, none)
    | some z => do
      let z ← if R.continuous then L.liftDdts states z else L.lift z
      return (← L.lift states, some z)

/-- `fit_transform` or `transform` of the states: _base.py:205-211. -/
def tfStates (I : TfI K T) (t : T) (inplace fit : Bool) (Y : Snap K) : T × Buf K :=
  if fit then I.fitTransform t inplace Y else (t, I.transform t inplace Y)

/-- Preprocessing of the left-hand side: _base.py:212-216. -/
def tfLhs (I : TfI K T) (t : T) (inplace continuous : Bool) (Z : Snap K) : Buf K :=
  if continuous then I.ddts t inplace Z else I.transform t inplace Z

/-- What a step of `encode` leaves behind: the ROM, the two arrays it was given, and the results. -/
structure EncOut (K T B : Type) where
  rom : Rom K T B
  states : Snap K
  lhs : Option (Snap K)
  out : Except Err (Snap K × Option (Snap K))

/-- Preprocessing in `encode`: _base.py:203-216. -/
def Rom.tfStep (R : Rom K T B) (inplace fit : Bool) (states : Snap K) (lhs : Option (Snap K)) : EncOut K T B :=
  match R.transformer with
  | none => ⟨R, states, lhs, .ok (states, lhs)⟩
  | some (I, t) => match tfStates I t inplace fit states with
    | (t, s', .error e) => ⟨{ R with transformer := some (I, t) }, s', lhs, .error e⟩
    | (t, s', .ok Y) => match lhs with
      | none => ⟨{ R with transformer := some (I, t) }, s', none, .ok (Y, none)⟩
      | some z => match tfLhs I t inplace R.continuous z with
        | (z', .error e) => ⟨{ R with transformer := some (I, t) }, s', some z', .error e⟩
        | (z', .ok Z) => ⟨{ R with transformer := some (I, t) }, s', some z', .ok (Y, some Z)⟩

/-- Compression of the states and the left-hand side: _base.py:222-224. -/
def compressBoth (I : BasI K B) (b : B) (states : Snap K) (lhs : Option (Snap K)) :
    Except Err (Snap K × Option (Snap K)) :=
  match I.compress b states with
  | .error e => .error e
  | .ok Y => match lhs with
    | none => .ok (Y, none)
    | some z => (I.compress b z).map fun Z => (Y, some Z)

/-- Dimensionality reduction in `encode`: _base.py:218-224. -/
def Rom.basisStep (R : Rom K T B) (fit : Bool) (states : Snap K) (lhs : Option (Snap K)) :
    Rom K T B × Except Err (Snap K × Option (Snap K)) :=
  match R.basis with
  | none => (R, .ok (states, lhs))
  | some (I, b) =>
    if fit then match I.fit b states with
      | (b, .error e) => ({ R with basis := some (I, b) }, .error e)
      | (b, .ok ()) => ({ R with basis := some (I, b) }, compressBoth I b states lhs)
    else (R, compressBoth I b states lhs)

/-- `encode(states, lhs, inplace, fit_transformer, fit_basis)`: _base.py:158-228. The arrays given are
changed only if no lifter stands between them and the transformer. -/
def Rom.encode (R : Rom K T B) (states : Snap K) (lhs : Option (Snap K)) (inplace fitT fitB : Bool) :
    EncOut K T B :=
  match R.liftStep states lhs with
  | .error e => ⟨R, states, lhs, .error e⟩
  | .ok (Y, Z) =>
    let o := R.tfStep inplace fitT Y Z
    let s' := if R.lifter.isSome then states else o.states
    let l' := if R.lifter.isSome then lhs else o.lhs
    match o.out with
    | .error e => ⟨o.rom, s', l', .error e⟩
    | .ok (Y, Z) => ⟨(o.rom.basisStep fitB Y Z).1, s', l', (o.rom.basisStep fitB Y Z).2⟩

/-- `encode(states)` with the default options. -/
def Rom.encode1 (R : Rom K T B) (states : Snap K) : Except Err (Snap K) :=
  (R.encode states none false false false).out.map Prod.fst

/-- Reversing the preprocessing: _base.py:257-263; the argument after the call, and the result. -/
def Rom.invStep (R : Rom K T B) (inplace : Bool) (states : Snap K) (locs : Option Locs) : Buf K :=
  match R.transformer with
  | none => (states, .ok states)
  | some (I, t) => I.inverse t inplace states locs

/-- Reversing the lifting: _base.py:265-267. -/
def Rom.unliftStep (R : Rom K T B) (states : Snap K) : Except Err (Snap K) :=
  match R.lifter with
  | none => .ok states
  | some L => L.unlift states

/-- `decode(states_encoded, locs)`: _base.py:230-267; the argument after the call, and the result. -/
def Rom.decode (R : Rom K T B) (encoded : Snap K) (locs : Option Locs) : Buf K :=
  match R.basis with
  | none =>
    let o := R.invStep false encoded locs
    (o.1, o.2 >>= R.unliftStep)
  | some (I, b) => match I.decompress b encoded locs with
    | .error e => (encoded, .error e)
    | .ok Y => (encoded, (R.invStep true Y locs).2 >>= R.unliftStep)

/-- `project(states)`: _base.py:269-292. -/
def Rom.project (R : Rom K T B) (states : Snap K) : Except Err (Snap K) := do
  (R.decode (← R.encode1 states) none).2

/-- `predict(state0, ...)`: /repo/src/opinf/roms/_nonparametric.py:326-348, _parametric.py:120-144;
`predict` is the method of the model with the other arguments given. -/
def Rom.predict (R : Rom K T B) (predict : Snap K → Except Err (Snap K)) (state0 : Snap K) :
    Except Err (Snap K) := do
  (R.decode (← predict (← R.encode1 state0)) none).2

end Opinf
