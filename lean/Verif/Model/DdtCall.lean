import Verif.Model.Verify
import Verif.Model.Lift

/-!
# The function `opinf.ddt.ddt`

/repo/src/opinf/ddt/_finite_difference.py:1026-1186 (`ddt_uniform`, `ddt_nonuniform`, `ddt`): which estimator is
called for which arguments.

Simplifications: arrays given as `dt`, `t` or `order` have one axis; an array given as `order` is refused
with ValueError (`if order == 2` of an array), also if it has a single entry; strings are not modelled. A step of
zero, for which numpy returns infinite values, is not treated separately. The states have a floating point type,
except in `ddtUniformTyped`.
-/

namespace Opinf

open List

variable {K : Type}

/-- A value given to `ddt()`: a Python float, a Python integer, an array, or an object that is neither a number nor
an array (such as `None` or a list). -/
inductive DdtVal (K : Type) where
  | flt (x : K)
  | int (z : Int)
  | arr (t : List K)
  | other

/-- The names of keyword arguments: `dt`, `t`, `order`, or any other name. -/
inductive DdtKey where
  | dt
  | t
  | order
  | unknown
deriving DecidableEq

/-- `np.isscalar(dt)` and the value: _finite_difference.py:1049. -/
def DdtVal.scalar [IntCast K] : DdtVal K → Except Err K
  | .flt x => .ok x
  | .int z => .ok z
  | .arr _ => .error .type
  | .other => .error .type

/-- Which branch `if order == 2 … elif order == 4 … elif order == 6 … else` is taken: _finite_difference.py:1054-1093;
`0` for the last one. -/
def DdtVal.branch [Field K] [DecidableEq K] : DdtVal K → Except Err Nat
  | .flt x => .ok (if x = 2 then 2 else if x = 4 then 4 else if x = 6 then 6 else 0)
  | .int z => .ok (if z = 2 then 2 else if z = 4 then 4 else if z = 6 then 6 else 0)
  | .arr _ => .error .value
  | .other => .ok 0

/-- `ddt_uniform(states, dt, order)`: _finite_difference.py:1026-1095. -/
def ddtUniformCall [Field K] [DecidableEq K] (Y : Snap K) (dt order : DdtVal K) : Except Err (Snap K) :=
  match Y with
  | .vec _ => .error .dimensionality
  | .mat k rows => do
    let h ← dt.scalar
    let o ← order.branch
    let M ← ddtUniform ⟨rows.length, k, rows⟩ h o
    return .mat M.ncols M.rows

/-- `ddt_nonuniform(states, t)`: _finite_difference.py:1098-1122. A number or another object has no attribute
`ndim`. -/
def ddtNonuniformCall [Field K] (Y : Snap K) (t : DdtVal K) : Except Err (Snap K) :=
  match Y, t with
  | .vec _, _ => .error .dimensionality
  | Y, .arr t => Y.ddt t
  | _, _ => .error .attribute

/-- The call with two further arguments, `ddt_uniform(states, *args, **kwargs)`: arguments that do not fit the
signature `(states, dt, order=2)` raise TypeError. -/
def ddtBound [Field K] [DecidableEq K] (Y : Snap K) : List (DdtVal K) → List (DdtKey × DdtVal K) →
    Except Err (Snap K)
  | [dt, order], [] => ddtUniformCall Y dt order
  | [dt], [(.order, order)] => ddtUniformCall Y dt order
  | [], [(.dt, dt), (.order, order)] => ddtUniformCall Y dt order
  | [], [(.order, order), (.dt, dt)] => ddtUniformCall Y dt order
  | _, _ => .error .type

/-- `ddt(states, *args, **kwargs)`: _finite_difference.py:1125-1186. -/
def ddtCall [Field K] [DecidableEq K] (Y : Snap K) (args : List (DdtVal K)) (kwargs : List (DdtKey × DdtVal K)) :
    Except Err (Snap K) :=
  match args, kwargs with
  | [], [] => .error .type
  | [], [(.dt, dt)] => ddtUniformCall Y dt (.int 2)
  | [], [(.t, t)] => ddtNonuniformCall Y t
  | [], [_] => .error .type
  | [.flt dt], [] => ddtUniformCall Y (.flt dt) (.int 2)
  | [.arr t], [] => ddtNonuniformCall Y (.arr t)
  | [_], [] => .error .type
  | args, kwargs => if args.length + kwargs.length = 2 then ddtBound Y args kwargs else .error .type

/-- `ddts = np.empty_like(states)` and the assignments to its columns, _finite_difference.py:1052-1090: the estimates
are stored in an array of the type of the states, which for states of an integer type (`ints = true`) truncates
towards zero. Rational numbers stand for floating point numbers. -/
def ddtUniformTyped (ints : Bool) (states : Mat ℚ) (dt : ℚ) (order : Nat) : Except Err (Mat ℚ) := do
  let M ← ddtUniform states dt order
  return if ints then ⟨M.nrows, M.ncols, M.rows.map (List.map fun x => ((pyInt x : ℤ) : ℚ))⟩ else M

end Opinf
