import Verif.Model.Core
import Mathlib.Algebra.Order.Field.Basic
import Mathlib.Data.List.MinMax

/-!
# Transformers (`opinf.pre`)

Sources: /repo/src/opinf/pre/_base.py, _shiftscale.py, _multi.py.

Simplifications that hold throughout this file:
* Arrays hold elements of an arbitrary ordered field, so there is no rounding. Operations that would
  put `inf` or `nan` into the result (a division by zero, a mean over no entries) report
  `Err.nonfinite` instead of going on; the parameters that would become non-finite are then left as
  they were.
* Arrays of floats are in-place assignable (integer arrays raise in numpy when a float is subtracted
  in place; not modelled).
* State arrays have one or two dimensions. Printing (`verbose`) has no effect here.
* An operation with `inplace=True` that raises half-way leaves its argument as the model says only for
  transformers that raise before the first assignment.
-/

namespace Opinf

open List

variable {K : Type}

/-! ### Arrays of states -/

/-- A state array: a single snapshot, or a matrix given by its rows with `k` entries each. -/
inductive Snap (K : Type)
  | vec (xs : List K)
  | mat (k : Nat) (rows : List (List K))
  deriving DecidableEq, Repr

/-- `Q.shape[0]`. -/
def Snap.len : Snap K → Nat
  | .vec xs => xs.length
  | .mat _ rows => rows.length

/-- Apply `f i` to every entry of row `i`. -/
def Snap.rowMap (f : Nat → K → K) : Snap K → Snap K
  | .vec xs => .vec (xs.mapIdx f)
  | .mat k rows => .mat k (rows.mapIdx fun i row => row.map (f i))

/-- Rows `[a:b]`. -/
def Snap.slice (a b : Nat) : Snap K → Snap K
  | .vec xs => .vec ((xs.take b).drop a)
  | .mat k rows => .mat k ((rows.take b).drop a)

/-- Rows at given positions (which must be valid). -/
def Snap.pick [Zero K] (ix : List Nat) : Snap K → Snap K
  | .vec xs => .vec (ix.map fun i => xs.getD i 0)
  | .mat k rows => .mat k (ix.map fun i => rows.getD i [])

/-- `np.concatenate` of two arrays. -/
def Snap.append : Snap K → Snap K → Except Err (Snap K)
  | .vec xs, .vec ys => .ok (.vec (xs ++ ys))
  | .mat k a, .mat l b => if k = l then .ok (.mat k (a ++ b)) else .error .value
  | _, _ => .error .value

/-- `np.concatenate`: `ValueError` without arrays or if they do not agree. -/
def Snap.concat : List (Snap K) → Except Err (Snap K)
  | [] => .error .value
  | [Y] => .ok Y
  | Y :: Ys => do Y.append (← Snap.concat Ys)

/-- A scaling parameter: a number or a one-dimensional array with one entry per row. -/
inductive Coef (K : Type)
  | num (a : K)
  | arr (as : List K)
  deriving DecidableEq, Repr

def Coef.isArr : Coef K → Bool
  | .num _ => false
  | .arr _ => true

def Coef.map (f : K → K) : Coef K → Coef K
  | .num a => .num (f a)
  | .arr as => .arr (as.map f)

/-- Elementwise combination of two parameters of the same kind and shape. -/
def Coef.zip (f : K → K → K) : Coef K → Coef K → Coef K
  | .num a, .num b => .num (f a b)
  | .arr as, .arr bs => .arr (zipWith f as bs)
  | .num a, .arr bs => .arr (bs.map (f a))
  | .arr as, .num b => .arr (as.map (f · b))

def Coef.entries : Coef K → List K
  | .num a => [a]
  | .arr as => as

/-- `Y op= c`, with an array reshaped to a column for a two-dimensional `Y`. A one-entry array
broadcasts; otherwise the lengths must agree. -/
def Snap.op [Zero K] (f : K → K → K) (Y : Snap K) : Coef K → Except Err (Snap K)
  | .num a => .ok (Y.rowMap fun _ y => f y a)
  | .arr as =>
    if as.length = Y.len then .ok (Y.rowMap fun i y => f y (as.getD i 0))
    else match as with
      | [a] => .ok (Y.rowMap fun _ y => f y a)
      | _ => .error .value

/-- `Y /= c`. -/
def Snap.div [Field K] [DecidableEq K] (Y : Snap K) (c : Coef K) : Except Err (Snap K) :=
  if (0 : K) ∈ c.entries then .error .nonfinite else Y.op (· / ·) c

/-! ### Selected locations -/

/-- The `locs` argument: integer positions or a slice. -/
inductive Locs
  | idx (is : List Int)
  | slice (start stop step : Option Int)
  deriving DecidableEq, Repr

/-- Python's index rule for a length `n`: negative positions count from the end, others raise
`IndexError`. -/
def pyIndex (n : Nat) (i : Int) : Except Err Nat :=
  if 0 ≤ i then if i < n then .ok i.toNat else .error .index
  else if 0 ≤ i + n then .ok (i + n).toNat
  else .error .index

/-- Clipping of a slice bound, with bounds `lo` and `hi`. -/
def clipBound (n lo hi : Int) (b : Int) : Int :=
  let b := if b < 0 then b + n else b
  if b < lo then lo else if hi < b then hi else b

/-- `np.arange(n)[start:stop:step]` (the rules of Python's `slice.indices`). -/
def sliceIdx (n : Nat) (start stop step : Option Int) : Except Err (List Int) :=
  let st := step.getD 1
  if st = 0 then .error .value
  else if 0 < st then
    let a := (start.map (clipBound n 0 n)).getD 0
    let b := (stop.map (clipBound n 0 n)).getD n
    let c := if a < b then ((b - a - 1) / st + 1).toNat else 0
    .ok ((range c).map fun i : Nat => a + (i : Int) * st)
  else
    let a := (start.map (clipBound n (-1) (n - 1))).getD (n - 1)
    let b := (stop.map (clipBound n (-1) (n - 1))).getD (-1)
    let c := if b < a then ((a - b - 1) / (-st) + 1).toNat else 0
    .ok ((range c).map fun i : Nat => a + (i : Int) * st)

/-- `_check_locs`: /repo/src/opinf/pre/_base.py:87-93. `np.arange(None)` raises `TypeError`. -/
def checkLocs (n : Option Nat) (p : Nat) (locs : Locs) : Except Err (List Int) := do
  let is ← match locs with
    | .idx is => .ok is
    | .slice a b c => match n with
      | none => .error .type
      | some n => sliceIdx n a b c
  if p ≠ is.length then .error .value else .ok is

/-- `a[locs]` for integer positions. -/
def fancy [Zero K] (as : List K) (is : List Int) : Except Err (List K) := do
  return (← is.mapM (pyIndex as.length)).map fun i => as.getD i 0

/-- `_check_shape`: /repo/src/opinf/pre/_base.py:80-85. -/
def checkShape (n : Option Nat) (Y : Snap K) : Except Err Unit :=
  match n with
  | none => .ok ()
  | some n => if Y.len = n then .ok () else .error .value

/-! ### The interface of a transformer -/

/-- What a call does to its array argument, and what it returns. -/
abbrev Buf (K : Type) := Snap K × Except Err (Snap K)

/-- `Y = states if inplace else states.copy()` followed by in-place operations on `Y`. -/
def onBuffer (inplace : Bool) (f : Snap K → Except Err (Snap K)) (Y : Snap K) : Buf K :=
  match f Y with
  | .ok Z => (if inplace then Z else Y, .ok Z)
  | .error e => (Y, .error e)

/-- The public methods of a transformer with state `S`: `state_dimension` and its setter, the setter of
the template class, `fit`, `fit_transform`, `transform`, `transform_ddts`, `inverse_transform`. Methods
with an `inplace` flag also tell the contents of the array argument afterwards.
/repo/src/opinf/pre/_base.py:21-205. A transformer whose `transform_ddts` is not implemented is not
modelled. -/
structure TfI (K S : Type) where
  dim : S → Option Nat
  setDim : S → Nat → S × Except Err Unit
  forceDim : S → Nat → S
  fit : S → Snap K → S × Except Err Unit
  fitTransform : S → Bool → Snap K → S × Buf K
  transform : S → Bool → Snap K → Buf K
  ddts : S → Bool → Snap K → Buf K
  inverse : S → Bool → Snap K → Option Locs → Buf K

/-! ### `ShiftTransformer` -/

/-- /repo/src/opinf/pre/_shiftscale.py:170-181. -/
structure Shift (K : Type) where
  qbar : List K
  name : Option String
  deriving DecidableEq, Repr

/-- `transform`: _shiftscale.py:253-276. -/
def Shift.transform [Field K] (s : Shift K) (Y : Snap K) : Except Err (Snap K) := do
  checkShape (some s.qbar.length) Y
  Y.op (· - ·) (.arr s.qbar)

/-- `inverse_transform`: _shiftscale.py:302-340. -/
def Shift.inverse [Field K] (s : Shift K) (Y : Snap K) (locs : Option Locs) : Except Err (Snap K) :=
  match locs with
  | none => do
    checkShape (some s.qbar.length) Y
    Y.op (· + ·) (.arr s.qbar)
  | some l => do
    let is ← checkLocs (some s.qbar.length) Y.len l
    Y.op (· + ·) (.arr (← fancy s.qbar is))

/-- `ShiftTransformer`: _shiftscale.py:140-340. -/
def shiftI [Field K] : TfI K (Shift K) where
  dim s := some s.qbar.length
  setDim s n := if n = s.qbar.length then (s, .ok ()) else (s, .error .attribute)
  forceDim s _ := s
  fit s Y := (s, checkShape (some s.qbar.length) Y)
  fitTransform s b Y := (s, onBuffer b s.transform Y)
  transform s b Y := onBuffer b s.transform Y
  ddts _ b Y := onBuffer b .ok Y
  inverse s b Y locs := onBuffer b (s.inverse · locs) Y

/-! ### `ScaleTransformer` -/

/-- /repo/src/opinf/pre/_shiftscale.py:409-429. -/
structure Scale (K : Type) where
  scl : Coef K
  n : Option Nat
  name : Option String
  deriving DecidableEq, Repr

/-- `__init__`: _shiftscale.py:409-429. -/
def Scale.make [Zero K] [DecidableEq K] (c : Coef K) (name : Option String) : Except Err (Scale K) :=
  if (0 : K) ∈ c.entries then .error .type
  else match c with
    | .num a => .ok ⟨.num a, none, name⟩
    | .arr as => .ok ⟨.arr as, some as.length, name⟩

/-- The `state_dimension` setter: _shiftscale.py:450-459. -/
def Scale.setDim (s : Scale K) (n : Nat) : Scale K × Except Err Unit :=
  if s.scl.isArr ∧ some n ≠ s.n then (s, .error .attribute) else ({ s with n := some n }, .ok ())

/-- `fit`: _shiftscale.py:469-489. -/
def Scale.fit (s : Scale K) (Y : Snap K) : Scale K × Except Err Unit :=
  let s := if s.scl.isArr then s else { s with n := some Y.len }
  (s, checkShape s.n Y)

/-- `transform`: _shiftscale.py:516-547; requires the state dimension. -/
def Scale.transform [Field K] (s : Scale K) (Y : Snap K) : Except Err (Snap K) := do
  if s.n.isNone then throw .attribute
  checkShape s.n Y
  Y.op (· * ·) s.scl

/-- `inverse_transform`: _shiftscale.py:576-622. -/
def Scale.inverse [Field K] [DecidableEq K] (s : Scale K) (Y : Snap K) (locs : Option Locs) :
    Except Err (Snap K) := do
  if s.n.isNone then throw .attribute
  match locs with
  | none => do
    checkShape s.n Y
    Y.div s.scl
  | some l => do
    let is ← checkLocs s.n Y.len l
    match s.scl with
    | .num a => Y.div (.num a)
    | .arr as => do Y.div (.arr (← fancy as is))

/-- `ScaleTransformer`: _shiftscale.py:363-622. -/
def scaleI [Field K] [DecidableEq K] : TfI K (Scale K) where
  dim s := s.n
  setDim := Scale.setDim
  forceDim s n := { s with n := some n }
  fit := Scale.fit
  fitTransform s b Y := match s.fit Y with
    | (s, .error e) => (s, Y, .error e)
    | (s, .ok ()) => (s, onBuffer b s.transform Y)
  transform s b Y := onBuffer b s.transform Y
  ddts s b Y := onBuffer b s.transform Y
  inverse s b Y locs := onBuffer b (s.inverse · locs) Y

/-! ### `NullTransformer` -/

/-- /repo/src/opinf/pre/_multi.py:176-188. -/
structure Null where
  n : Option Nat
  name : Option String
  deriving DecidableEq, Repr

/-- `inverse_transform`: _multi.py:274-305. -/
def Null.inverse (s : Null) (Y : Snap K) (locs : Option Locs) : Except Err (Snap K) :=
  match locs with
  | none => do checkShape s.n Y; return Y
  | some l => do let _ ← checkLocs s.n Y.len l; return Y

/-- `NullTransformer`: _multi.py:176-305. -/
def nullI : TfI K Null where
  dim s := s.n
  setDim s n := ({ s with n := some n }, .ok ())
  forceDim s n := { s with n := some n }
  fit s Y := ({ s with n := some Y.len }, .ok ())
  fitTransform s b Y := ({ s with n := some Y.len }, onBuffer b .ok Y)
  transform s b Y := onBuffer b (fun Y => do checkShape s.n Y; return Y) Y
  ddts s b Y := onBuffer b (fun Y => do checkShape s.n Y; return Y) Y
  inverse s b Y locs := onBuffer b (s.inverse · locs) Y

/-! ### `ShiftScaleTransformer` -/

/-- Valid scalings: _shiftscale.py:824-833. -/
inductive Scaling
  | standard | minmax | minmaxsym | maxabs | maxabssym | maxnorm | maxnormsym
  deriving DecidableEq, Repr

/-- /repo/src/opinf/pre/_shiftscale.py:840-880. `mean_`, `scale_`, `shift_` are `mean`, `alpha`,
`beta`. -/
structure Sst (K : Type) where
  centering : Bool
  scaling : Option Scaling
  byrow : Bool
  name : Option String
  verbose : Bool
  n : Option Nat
  mean : Option (List K)
  alpha : Option (Coef K)
  beta : Option (Coef K)
  deriving DecidableEq, Repr

/-- `__init__` with a valid scaling: _shiftscale.py:840-880. -/
def Sst.make (centering : Bool) (scaling : Option Scaling) (byrow : Bool) (name : Option String)
    (verbose : Bool) : Except Err (Sst K) :=
  if byrow ∧ (scaling = some .maxnorm ∨ scaling = some .maxnormsym) then .error .value
  else .ok ⟨centering, scaling, byrow, name, verbose, none, none, none, none⟩

section Stats

variable [Field K]

/-- `np.mean` of a nonempty list of numbers. -/
def meanOf (l : List K) : Except Err K :=
  if l.isEmpty then .error .nonfinite else .ok (l.sum / l.length)

variable [LinearOrder K]

/-- `np.min` (`ValueError` without entries). -/
def minOf : List K → Except Err K
  | [] => .error .value
  | x :: l => .ok (l.foldl min x)

/-- `np.max`. -/
def maxOf : List K → Except Err K
  | [] => .error .value
  | x :: l => .ok (l.foldl max x)

/-- `np.std`: the square root of the mean squared deviation from the mean. -/
def stdOf (sqrt : K → K) (l : List K) : Except Err K := do
  let mu ← meanOf l
  return sqrt (← meanOf (l.map fun x => (x - mu) ^ 2))

/-- `np.max(np.abs(·))`. -/
def maxAbsOf (l : List K) : Except Err K := maxOf (l.map fun x => |x|)

/-- A statistic over all entries or by row: `axis = 1 if self.byrow else None`. -/
def stat (g : List K → Except Err K) (byrow : Bool) (rows : List (List K)) : Except Err (Coef K) :=
  if byrow then do return .arr (← rows.mapM g) else do return .num (← g rows.flatten)

/-- `a / c`. -/
def Coef.recip (a : K) (c : Coef K) : Except Err (Coef K) :=
  if (0 : K) ∈ c.entries then .error .nonfinite else .ok (c.map (a / ·))

/-- The Euclidean norm of each column, largest first taken: `np.max(np.linalg.norm(Y, axis=0))`. -/
def maxColNorm (sqrt : K → K) (k : Nat) (rows : List (List K)) : Except Err K :=
  maxOf ((range k).map fun j => sqrt ((rows.map fun row => row.getD j 0 ^ 2).sum))

/-- The parameters learned from (centered) data: _shiftscale.py:1074-1127. In `maxabssym` the mean is
subtracted from the data and added again; the data are unchanged afterwards. -/
def learnScaling (sqrt : K → K) (sc : Scaling) (byrow : Bool) (k : Nat) (rows : List (List K)) :
    Except Err (Coef K × Coef K) :=
  match sc with
  | .standard => do
    let mu ← stat meanOf byrow rows
    let sigma ← stat (stdOf sqrt) byrow rows
    let a ← sigma.recip 1
    return (a, mu.zip (fun m a => -m * a) a)
  | .minmax => do
    let lo ← stat minOf byrow rows
    let hi ← stat maxOf byrow rows
    let a ← (hi.zip (· - ·) lo).recip 1
    return (a, lo.zip (fun m a => -m * a) a)
  | .minmaxsym => do
    let lo ← stat minOf byrow rows
    let hi ← stat maxOf byrow rows
    let a ← (hi.zip (· - ·) lo).recip 2
    return (a, lo.zip (fun m a => -m * a - 1) a)
  | .maxabs => do
    let a ← (← stat maxAbsOf byrow rows).recip 1
    return (a, if byrow then .arr (replicate rows.length 0) else .num 0)
  | .maxabssym => do
    let mu ← stat meanOf byrow rows
    match ← (Snap.mat k rows).op (· - ·) mu with
    | .vec _ => throw .runtime
    | .mat _ rows' =>
      let a ← (← stat maxAbsOf byrow rows').recip 1
      return (a, mu.zip (fun m a => -m * a) a)
  | .maxnorm =>
    if byrow then .error .runtime
    else do
      let a ← (Coef.num (← maxColNorm sqrt k rows)).recip 1
      return (a, .num 0)
  | .maxnormsym =>
    if byrow then .error .runtime
    else do
      let mu ← meanOf rows.flatten
      let a ← (Coef.num (← maxColNorm sqrt k (rows.map fun row => row.map (· - mu)))).recip 1
      return (a, (Coef.num mu).zip (fun m a => -m * a) a)

/-- `fit_transform`: _shiftscale.py:1026-1147. -/
def Sst.fitTransform (sqrt : K → K) (s : Sst K) (Y : Snap K) : Sst K × Except Err (Snap K) :=
  match Y with
  | .vec _ => (s, .error .value)
  | .mat k rows =>
    let s := { s with n := some rows.length }
    match (if s.centering then (rows.mapM meanOf).map some else .ok none : Except Err (Option (List K))) with
    | .error e => (s, .error e)
    | .ok mu =>
      let s := match mu with
        | none => s
        | some mu => { s with mean := some mu }
      match (match mu with
        | none => .ok (.mat k rows)
        | some mu => (Snap.mat k rows).op (· - ·) (.arr mu) : Except Err (Snap K)) with
      | .error e => (s, .error e)
      | .ok Y => match s.scaling with
        | none => (s, .ok Y)
        | some sc => match Y with
          | .vec _ => (s, .error .runtime)
          | .mat k rows => match learnScaling sqrt sc s.byrow k rows with
            | .error e => (s, .error e)
            | .ok (a, b) =>
              ({ s with alpha := some a, beta := some b },
                do (← (Snap.mat k rows).op (· * ·) a).op (· + ·) b)

end Stats

/-- `_is_trained`: _shiftscale.py:1009-1017. -/
def Sst.isTrained (s : Sst K) : Bool :=
  !(s.centering && s.mean.isNone) && !(s.scaling.isSome && (s.alpha.isNone || s.beta.isNone))

/-- The centering step. _shiftscale.py:1178-1180. -/
def Sst.centerStep [Field K] (s : Sst K) (Y : Snap K) : Except Err (Snap K) :=
  match s.centering, s.mean with
  | true, some mu => Y.op (· - ·) (.arr mu)
  | _, _ => .ok Y

/-- The scaling step. _shiftscale.py:1182-1186. -/
def Sst.scaleStep [Field K] (s : Sst K) (Y : Snap K) : Except Err (Snap K) :=
  match s.scaling, s.alpha, s.beta with
  | some _, some a, some b => do (← Y.op (· * ·) a).op (· + ·) b
  | _, _, _ => .ok Y

/-- `transform`: _shiftscale.py:1149-1188. -/
def Sst.transform [Field K] (s : Sst K) (Y : Snap K) : Except Err (Snap K) := do
  if !s.isTrained then throw .attribute
  checkShape s.n Y
  s.scaleStep (← s.centerStep Y)

/-- `transform_ddts`: _shiftscale.py:1190-1228. -/
def Sst.ddts [Field K] (s : Sst K) (Y : Snap K) : Except Err (Snap K) := do
  if !s.isTrained then throw .attribute
  checkShape s.n Y
  match s.scaling, s.alpha with
  | some _, some a => Y.op (· * ·) a
  | _, _ => .ok Y

/-- `shift_[locs]` for a parameter that may be missing (`TypeError`) or a number (`TypeError` or
`IndexError`; one of them is reported). -/
def Coef.at [Zero K] (c : Option (Coef K)) (is : List Int) : Except Err (Coef K) :=
  match c with
  | some (.arr as) => do return .arr (← fancy as is)
  | _ => .error .type

/-- The shift and scale used by `inverse_transform`: _shiftscale.py:1269-1276. -/
def Sst.paramsAt [Zero K] (s : Sst K) (is : Option (List Int)) :
    Except Err (Option (Coef K) × Option (Coef K)) :=
  match s.byrow, is with
  | true, some is => do return (some (← Coef.at s.beta is), some (← Coef.at s.alpha is))
  | _, _ => .ok (s.beta, s.alpha)

/-- The steps of the inverse, with parameters for the rows present. _shiftscale.py:1280-1284. -/
def Sst.unscale [Field K] [DecidableEq K] (s : Sst K) (ba : Option (Coef K) × Option (Coef K)) (Y : Snap K) :
    Except Err (Snap K) :=
  match s.scaling, ba with
  | some _, (some b, some a) => do (← Y.op (· - ·) b).div a
  | _, _ => .ok Y

/-- The last step of the inverse. _shiftscale.py:1286-1289. -/
def Sst.uncenter [Field K] (s : Sst K) (is : Option (List Int)) (Y : Snap K) : Except Err (Snap K) :=
  match s.centering, s.mean with
  | true, some mu => match is with
    | none => Y.op (· + ·) (.arr mu)
    | some is => do Y.op (· + ·) (.arr (← fancy mu is))
  | _, _ => .ok Y

/-- `inverse_transform`: _shiftscale.py:1230-1291. -/
def Sst.inverse [Field K] [DecidableEq K] (s : Sst K) (Y : Snap K) (locs : Option Locs) :
    Except Err (Snap K) := do
  if !s.isTrained then throw .attribute
  let is ← match locs with
    | none => do checkShape s.n Y; pure none
    | some l => do pure (some (← checkLocs s.n Y.len l))
  let ba ← s.paramsAt is
  s.uncenter is (← s.unscale ba Y)

/-- `ShiftScaleTransformer`: _shiftscale.py:654-1291. `fit` is the one of the template class. -/
def sstI [Field K] [LinearOrder K] (sqrt : K → K) : TfI K (Sst K) where
  dim s := s.n
  setDim s n := ({ s with n := some n }, .ok ())
  forceDim s n := { s with n := some n }
  fit s Y := ((s.fitTransform sqrt Y).1, (s.fitTransform sqrt Y).2.map fun _ => ())
  fitTransform s b Y :=
    ((s.fitTransform sqrt Y).1, onBuffer b (fun Y => (s.fitTransform sqrt Y).2) Y)
  transform s b Y := onBuffer b s.transform Y
  ddts s b Y := onBuffer b s.ddts Y
  inverse s b Y locs := onBuffer b (s.inverse · locs) Y

/-! ### Two kinds of transformers together -/

/-- Lists of transformers of different classes. -/
def sumI {S T : Type} (I : TfI K S) (J : TfI K T) : TfI K (S ⊕ T) where
  dim s := match s with | .inl s => I.dim s | .inr t => J.dim t
  setDim s n := match s with
    | .inl s => let r := I.setDim s n; (.inl r.1, r.2)
    | .inr t => let r := J.setDim t n; (.inr r.1, r.2)
  forceDim s n := match s with | .inl s => .inl (I.forceDim s n) | .inr t => .inr (J.forceDim t n)
  fit s Y := match s with
    | .inl s => let r := I.fit s Y; (.inl r.1, r.2)
    | .inr t => let r := J.fit t Y; (.inr r.1, r.2)
  fitTransform s b Y := match s with
    | .inl s => let r := I.fitTransform s b Y; (.inl r.1, r.2)
    | .inr t => let r := J.fitTransform t b Y; (.inr r.1, r.2)
  transform s b Y := match s with | .inl s => I.transform s b Y | .inr t => J.transform t b Y
  ddts s b Y := match s with | .inl s => I.ddts s b Y | .inr t => J.ddts t b Y
  inverse s b Y locs := match s with
    | .inl s => I.inverse s b Y locs
    | .inr t => J.inverse t b Y locs

/-! ### `TransformerPipeline` -/

/-- `_chain` (also the loop of `inverse_transform`): /repo/src/opinf/pre/_multi.py:105-112, 120-128.
The first transformer works on the argument or a copy of it, the others in place on what the first
returned. -/
def chain {S : Type} (f : S → Bool → Snap K → Buf K) : List S → Bool → Snap K → Buf K
  | [], _, Y => (Y, .ok Y)
  | t :: ts, b, Y => match f t b Y with
    | (Y', .error e) => (Y', .error e)
    | (Y', .ok Z) =>
      let r := chain f ts true Z
      (if b then r.1 else Y', r.2)

/-- `_chain("fit_transform")`: _multi.py:105-115. -/
def chainFit {S : Type} (f : S → Bool → Snap K → S × Buf K) : List S → Bool → Snap K → List S × Buf K
  | [], _, Y => ([], Y, .ok Y)
  | t :: ts, b, Y => match f t b Y with
    | (t', Y', .error e) => (t' :: ts, Y', .error e)
    | (t', Y', .ok Z) =>
      let r := chainFit f ts true Z
      (t' :: r.1, if b then r.2.1 else Y', r.2.2)

/-- `state_dimension` of a pipeline: _multi.py:83-89. -/
def firstDim {S : Type} (I : TfI K S) : List S → Option Nat
  | [] => none
  | t :: ts => match I.dim t with
    | some n => some n
    | none => firstDim I ts

/-- `TransformerPipeline.__init__`: _multi.py:41-68. `statedims` may contain at most one number. -/
def pipeMake {S : Type} (I : TfI K S) (ts : List S) : Except Err (List S) :=
  if (ts.filterMap I.dim).dedup.length ≤ 1 then .ok ts else .error .value

/-- `TransformerPipeline`: _multi.py:18-131. The property `state_dimension` has no setter. Without
transformers `self.transformers[0]` raises `IndexError`. -/
def pipeI {S : Type} (I : TfI K S) : TfI K (List S) where
  dim := firstDim I
  setDim ts _ := (ts, .error .attribute)
  forceDim ts _ := ts
  fit ts Y := if ts.isEmpty then (ts, .error .index)
    else let r := chainFit I.fitTransform ts false Y; (r.1, r.2.2.map fun _ => ())
  fitTransform ts b Y := if ts.isEmpty then (ts, Y, .error .index) else chainFit I.fitTransform ts b Y
  transform ts b Y := if ts.isEmpty then (Y, .error .index) else chain I.transform ts b Y
  ddts ts b Y := if ts.isEmpty then (Y, .error .index) else chain I.ddts ts b Y
  inverse ts b Y locs := if ts.isEmpty then (Y, .error .index)
    else chain (fun t b Y => I.inverse t b Y locs) ts.reverse b Y

/-! ### `TransformerMulti` -/

/-- `state_dimension`: _multi.py:425-432. -/
def multiDim {S : Type} (I : TfI K S) (ts : List S) : Option Nat :=
  (ts.mapM I.dim).map List.sum

/-- `_check_shape`: _multi.py:476-482. -/
def multiCheck {S : Type} (I : TfI K S) (ts : List S) (Y : Snap K) : Except Err Unit :=
  match multiDim I ts with
  | none => .error .attribute
  | some n => if Y.len = n then .ok () else .error .dimensionality

/-- Consecutive slices of the given sizes: _multi.py:484-508 with `split`, 530-544. -/
def splitSizes : List Nat → Nat → Snap K → List (Snap K)
  | [], _, _ => []
  | n :: ns, a, Y => Y.slice a (a + n) :: splitSizes ns (a + n) Y

/-- `split`: _multi.py:530-544. -/
def multiSplit {S : Type} (I : TfI K S) (ts : List S) (Y : Snap K) : Except Err (List (Snap K)) := do
  multiCheck I ts Y
  return splitSizes ((ts.map I.dim).map (·.getD 0)) 0 Y

/-- `names.index(var)` for a name that occurs; another string then fails as an index. -/
def varIndex (names : List String) : Int ⊕ String → Except Err Int
  | .inl i => .ok i
  | .inr v => if v ∈ names then .ok (names.idxOf v) else .error .index

/-- `get_var(var, states)`: _multi.py:510-528. `dimsum[varindex]` and `dimsum[varindex + 1]` follow
Python's index rule separately. -/
def multiGetVar {S : Type} (I : TfI K S) (names : List String) (ts : List S) (var : Int ⊕ String)
    (Y : Snap K) : Except Err (Snap K) := do
  multiCheck I ts Y
  let var ← varIndex names var
  let sizes := (ts.map I.dim).map (·.getD 0)
  let dimsum := (range (sizes.length + 1)).map fun i => (sizes.take i).sum
  let a ← pyIndex dimsum.length var
  let b ← pyIndex dimsum.length (var + 1)
  return Y.slice (dimsum.getD a 0) (dimsum.getD b 0)

/-- The list comprehensions over `zip(self.transformers, parts)`: each transformer works on its part
(a view of the argument); an exception ends the loop. Returns the parts of the argument afterwards and
the results. -/
def eachPart {S : Type} (f : S → Snap K → Buf K) : List S → List (Snap K) →
    List (Snap K) × Except Err (List (Snap K))
  | t :: ts, Y :: Ys => match f t Y with
    | (Y', .error e) => (Y' :: Ys, .error e)
    | (Y', .ok Z) => match eachPart f ts Ys with
      | (Ys', .error e) => (Y' :: Ys', .error e)
      | (Ys', .ok Zs) => (Y' :: Ys', .ok (Z :: Zs))
  | _, Ys => (Ys, .ok [])

/-- The same loop for `fit_transform`, which changes the transformers. -/
def eachPartFit {S : Type} (f : S → Snap K → S × Buf K) : List S → List (Snap K) →
    List S × List (Snap K) × Except Err (List (Snap K))
  | t :: ts, Y :: Ys => match f t Y with
    | (t', Y', .error e) => (t' :: ts, Y' :: Ys, .error e)
    | (t', Y', .ok Z) => match eachPartFit f ts Ys with
      | (ts', Ys', .error e) => (t' :: ts', Y' :: Ys', .error e)
      | (ts', Ys', .ok Zs) => (t' :: ts', Y' :: Ys', .ok (Z :: Zs))
  | ts, Ys => (ts, Ys, .ok [])

/-- The argument after its parts were changed in place. -/
def rejoin (Y : Snap K) (parts : List (Snap K)) : Snap K :=
  match Snap.concat parts with
  | .ok Z => Z
  | .error _ => Y

/-- What a multi-transformer method returns: `return states if inplace else new_states`. -/
def multiResult (inplace : Bool) (Y : Snap K) (r : List (Snap K) × Except Err (List (Snap K))) : Buf K :=
  let Y' := rejoin Y r.1
  match r.2 with
  | .error e => (Y', .error e)
  | .ok Zs => match Snap.concat Zs with
    | .error e => (Y', .error e)
    | .ok Z => (Y', .ok (if inplace then Y' else Z))

/-- `np.split(states, nq, axis=0)`: `ValueError` unless the rows divide evenly. -/
def splitEven (nq : Nat) (Y : Snap K) : Except Err (List (Snap K)) :=
  if Y.len % nq = 0 then .ok (splitSizes (replicate nq (Y.len / nq)) 0 Y) else .error .value

/-- `TransformerMulti.transform`: _multi.py:605-628. -/
def multiTransform {S : Type} (I : TfI K S) (ts : List S) (b : Bool) (Y : Snap K) : Buf K :=
  match multiSplit I ts Y with
  | .error e => (Y, .error e)
  | .ok parts => multiResult b Y (eachPart (fun t Y => I.transform t b Y) ts parts)

/-- `TransformerMulti.transform_ddts`: _multi.py:630-657. (In place, the code does not concatenate; this
makes no difference for transformers that keep the shape.) -/
def multiDdts {S : Type} (I : TfI K S) (ts : List S) (b : Bool) (Y : Snap K) : Buf K :=
  match multiSplit I ts Y with
  | .error e => (Y, .error e)
  | .ok parts => multiResult b Y (eachPart (fun t Y => I.ddts t b Y) ts parts)

/-- `TransformerMulti.inverse_transform`: _multi.py:659-704. -/
def multiInverse {S : Type} (I : TfI K S) (ts : List S) (b : Bool) (Y : Snap K) (locs : Option Locs) :
    Buf K :=
  match multiDim I ts with
  | none => (Y, .error .attribute)
  | some _ => match locs with
    | none => match multiSplit I ts Y with
      | .error e => (Y, .error e)
      | .ok parts => multiResult b Y (eachPart (fun t Y => I.inverse t b Y none) ts parts)
    | some l =>
      if 1 < (ts.map I.dim).dedup.length then (Y, .error .value)
      else match splitEven ts.length Y with
        | .error e => (Y, .error e)
        | .ok parts => multiResult b Y (eachPart (fun t Y => I.inverse t b Y (some l)) ts parts)

/-- `TransformerMulti.fit_transform`: _multi.py:562-603. -/
def multiFitTransform {S : Type} (I : TfI K S) (ts : List S) (b : Bool) (Y : Snap K) :
    List S × Buf K :=
  match (match multiDim I ts with
    | some _ => .ok ts
    | none => if Y.len % ts.length = 0 then .ok (ts.map fun t => I.forceDim t (Y.len / ts.length))
      else .error .dimensionality : Except Err (List S)) with
  | .error e => (ts, Y, .error e)
  | .ok ts => match multiSplit I ts Y with
    | .error e => (ts, Y, .error e)
    | .ok parts =>
      let r := eachPartFit (fun t Y => I.fitTransform t b Y) ts parts
      (r.1, multiResult b Y r.2)

/-- The loop over `zip(tfs, variable_sizes)` in `TransformerMulti.__init__`: _multi.py:386-396. -/
def setSizes {S : Type} (I : TfI K S) : List S → List Nat → Except Err (List S)
  | t :: ts, n :: ns => do
    let t ← match I.dim t with
      | none => match I.setDim t n with
        | (t, .ok ()) => pure t
        | (_, .error e) => throw e
      | some m => if m = n then pure t else throw .value
    return t :: (← setSizes I ts ns)
  | ts, _ => .ok ts

/-- `TransformerMulti.__init__`: _multi.py:366-400, without the default names. -/
def multiMake {S : Type} (I : TfI K S) (ts : List S) (sizes : Option (List Nat)) : Except Err (List S) :=
  if ts.isEmpty then .error .value
  else match sizes with
    | none => .ok ts
    | some ns => if ns.length ≠ ts.length then .error .value else setSizes I ts ns

/-- `TransformerMulti`: _multi.py:326-704. The property `state_dimension` has no setter. -/
def multiI {S : Type} (I : TfI K S) : TfI K (List S) where
  dim := multiDim I
  setDim ts _ := (ts, .error .attribute)
  forceDim ts _ := ts
  fit ts Y := let r := multiFitTransform I ts false Y; (r.1, r.2.2.map fun _ => ())
  fitTransform := multiFitTransform I
  transform := multiTransform I
  ddts := multiDdts I
  inverse := multiInverse I

/-! ### The built-in transformers -/

/-- Any built-in transformer for a single variable. -/
abbrev Basic (K : Type) := Shift K ⊕ (Scale K ⊕ (Sst K ⊕ Null))

/-- The methods of the built-in transformers. -/
def basicI [Field K] [LinearOrder K] (sqrt : K → K) : TfI K (Basic K) :=
  sumI shiftI (sumI scaleI (sumI (sstI sqrt) nullI))

end Opinf
