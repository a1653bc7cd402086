import Verif.Model.Transform
import Verif.Model.Lstsq

/-! Model of the functions `opinf.pre.shift()` and `opinf.pre.scale()`: `pre/_shiftscale.py:21-136`. -/

namespace Opinf

open List

variable {K : Type}

/-- `states - v.reshape((-1, 1))` for an `(n, k)` array and a vector, with numpy's broadcasting: a vector with one
entry is subtracted everywhere, and a single row is repeated for every entry of the vector. _shiftscale.py:68. -/
def subColumn [Sub K] (k : Nat) (rows : List (List K)) (v : List K) : Except Err (Snap K) :=
  if v.length = rows.length then .ok (.mat k (zipWith (fun a row => row.map (· - a)) v rows))
  else match v, rows with
    | [a], _ => .ok (.mat k (rows.map fun row => row.map (· - a)))
    | _, [row] => .ok (.mat k (v.map fun a => row.map (· - a)))
    | _, _ => .error .value

/-- A given `shift_by`, made one-dimensional: _shiftscale.py:61-65. -/
def shiftVector [Zero K] : NdArg K → Except Err (List K)
  | .vec v => .ok v
  | .mat A => if A.ncols = 1 then .ok (A.rows.map fun row => row.getD 0 0) else .error .value
  | .other => .error .value

/-- `opinf.pre.shift(states, shift_by)`: _shiftscale.py:21-70. The second component is the learned mean, which is
returned only without `shift_by`. Without snapshots the mean is NaN, which is an error here. -/
def preShift [Field K] (states : Snap K) (shiftBy : Option (NdArg K)) :
    Except Err (Snap K × Option (List K)) :=
  match states with
  | .vec _ => .error .value
  | .mat k rows => match shiftBy with
    | none => do
      let v ← rows.mapM meanOf
      let Y ← subColumn k rows v
      .ok (Y, some v)
    | some w => do
      let v ← shiftVector w
      let Y ← subColumn k rows v
      .ok (Y, none)

/-- All entries of an array. -/
def Snap.entries : Snap K → List K
  | .vec xs => xs
  | .mat _ rows => rows.flatten

/-- The scaling itself: _shiftscale.py:130-134. -/
def scaleBy [Field K] (states : Snap K) (mini maxi xmin xmax : K) : Snap K :=
  states.rowMap fun _ y => y * ((maxi - mini) / (xmax - xmin)) + (mini - xmin * ((maxi - mini) / (xmax - xmin)))

/-- `opinf.pre.scale(states, scale_to, scale_from)`: _shiftscale.py:73-136. The second component is
`(scaled_to, scaled_from)`, which are returned only without `scale_from`. If the learned bounds agree, the result is
full of NaNs (an error here); if the given bounds agree, the division of Python numbers raises
`ZeroDivisionError`. -/
def preScale [Field K] [LinearOrder K] (states : Snap K) (dst : List K) (fr : Option (List K)) :
    Except Err (Snap K × Option (List K × List K)) :=
  match fr with
  | none => do
    let xmin ← minOf states.entries
    let xmax ← maxOf states.entries
    match dst with
    | [mini, maxi] =>
      if xmax - xmin = 0 then .error .nonfinite
      else .ok (scaleBy states mini maxi xmin xmax, some ([mini, maxi], [xmin, xmax]))
    | _ => .error .value
  | some fr => match dst, fr with
    | [mini, maxi], [xmin, xmax] =>
      if xmax - xmin = 0 then .error .zeroDivision else .ok (scaleBy states mini maxi xmin xmax, none)
    | _, _ => .error .value

end Opinf
