import Verif.Model.Core
import Mathlib.Data.Rat.Cast.Defs
import Mathlib.Algebra.Order.Ring.Unbundled.Rat

/-!
# Lifting maps

Model of /repo/src/opinf/lift/_polynomial.py. A state array of shape `(n, k)` is the list of its `n` rows;
one-dimensional states and broadcasting of arrays with different shapes are not modelled (unequal shapes are
an error here). The orders of a polynomial lifting map are rational numbers, which contains every integer and
every finite floating point number.
-/

namespace Opinf

variable {K : Type}

/-- The elementwise numpy power `q ** p`; `none` stands for a result which is not a finite number (a negative
power of zero, or a fractional power of a negative number). The functions below take this operation as a
parameter, because fractional powers are not computable. -/
abbrev PowFn (K : Type) := K → ℚ → Option K

/-- The power function restricted to integer orders, for computable examples. -/
def intPow [Field K] [DecidableEq K] : PowFn K := fun q p =>
  if p.den ≠ 1 then none else if q = 0 ∧ p.num < 0 then none else some (q ^ p.num)

/-- A finite number, or the marker for a result that contains NaN or Inf. -/
def finite (x : Option K) : Except Err K :=
  match x with
  | some v => .ok v
  | none => .error .nonfinite

/-- `states**p` for an array of states (e.g. /repo/src/opinf/lift/_polynomial.py:143). -/
def powAll (pw : PowFn K) (p : ℚ) (Q : List (List K)) : Except Err (List (List K)) :=
  Q.mapM fun row => row.mapM fun q => finite (pw q p)

/-- The shapes of two arrays given as lists of rows are equal. -/
def sameShape (A B : List (List K)) : Bool := A.map List.length == B.map List.length

/-- `A * B` elementwise for arrays of the same shape; other shapes raise ValueError (broadcasting is not
modelled). -/
def mulAll [Mul K] (A B : List (List K)) : Except Err (List (List K)) :=
  if sameShape A B then .ok (List.zipWith (List.zipWith (· * ·)) A B) else .error .value

/-- `np.split(A, m, axis=0)`: equal division along the rows; ZeroDivisionError for `m = 0`, ValueError if the
number of rows is not a multiple of `m`. -/
def splitRows (A : List (List K)) (m : Nat) : Except Err (List (List (List K))) :=
  if m = 0 then .error .zeroDivision
  else if A.length % m ≠ 0 then .error .value
  else .ok ((List.range m).map fun i => (A.drop (i * (A.length / m))).take (A.length / m))

/-- QuadraticLifter.lift, /repo/src/opinf/lift/_polynomial.py:20-34: `np.concatenate((states, states**2))`. -/
def quadLift [Monoid K] (Q : List (List K)) : List (List K) := Q ++ Q.map (List.map (· ^ 2))

/-- QuadraticLifter.lift_ddts, /repo/src/opinf/lift/_polynomial.py:36-54:
`np.concatenate((ddts, 2 * states * ddts))`. -/
def quadLiftDdts [Semiring K] (Q D : List (List K)) : Except Err (List (List K)) :=
  (mulAll (Q.map (List.map (2 * ·))) D).map (D ++ ·)

/-- QuadraticLifter.unlift, /repo/src/opinf/lift/_polynomial.py:56-70: `np.split(lifted_states, 2)[0]`. -/
def quadUnlift (L : List (List K)) : Except Err (List (List K)) :=
  (splitRows L 2).map fun vs => vs.getD 0 []

/-- The argument of PolynomialLifter: a number, or a sequence whose entries are numbers (`some p`) or other
objects (`none`). -/
inductive OrdersArg
  | num (p : ℚ)
  | seq (ps : List (Option ℚ))

/-- Python's `int(p)` for a float: truncation towards zero. -/
def pyInt (p : ℚ) : ℤ := p.num.tdiv p.den

/-- The sequence of orders: a single number becomes `(int(p),)`,
/repo/src/opinf/lift/_polynomial.py:103-104. -/
def OrdersArg.toSeq : OrdersArg → List (Option ℚ)
  | .num p => [some (pyInt p)]
  | .seq ps => ps

/-- PolynomialLifter.orders (setter) and __init__, /repo/src/opinf/lift/_polynomial.py:86-116: every entry has to
be a number, otherwise TypeError; the second component says whether the warning about `q -> q^0` is given. -/
def polyOrders (a : OrdersArg) : Except Err (List ℚ × Bool) :=
  if a.toSeq.any Option.isNone then .error .type
  else .ok (a.toSeq.filterMap id, a.toSeq.filterMap id == [0])

/-- `np.concatenate(blocks)` along the rows; ValueError without any block. -/
def concatRows (bs : List (List (List K))) : Except Err (List (List K)) :=
  if bs.isEmpty then .error .value else .ok bs.flatten

/-- PolynomialLifter.lift, /repo/src/opinf/lift/_polynomial.py:131-145. -/
def polyLift (pw : PowFn K) (orders : List ℚ) (Q : List (List K)) : Except Err (List (List K)) := do
  concatRows (← orders.mapM fun p => powAll pw p Q)

/-- One block `p * states ** (p - 1) * ddts` of /repo/src/opinf/lift/_polynomial.py:164-166. -/
def polyDdtsBlock [Field K] (pw : PowFn K) (p : ℚ) (Q D : List (List K)) : Except Err (List (List K)) := do
  mulAll ((← powAll pw (p - 1) Q).map (List.map ((p : K) * ·))) D

/-- PolynomialLifter.lift_ddts, /repo/src/opinf/lift/_polynomial.py:147-166. -/
def polyLiftDdts [Field K] (pw : PowFn K) (orders : List ℚ) (Q D : List (List K)) :
    Except Err (List (List K)) := do
  concatRows (← orders.mapM fun p => polyDdtsBlock pw p Q D)

/-- The loop of PolynomialLifter.unlift for orders without 1, /repo/src/opinf/lift/_polynomial.py:183-186. -/
def unliftLoop (pw : PowFn K) : List (List (List K) × ℚ) → Except Err (List (List K))
  | [] => .error .zeroDivision
  | (var, p) :: rest => if p ≠ 0 then powAll pw (1 / p) var else unliftLoop pw rest

/-- PolynomialLifter.unlift, /repo/src/opinf/lift/_polynomial.py:168-186. -/
def polyUnlift (pw : PowFn K) (orders : List ℚ) (L : List (List K)) : Except Err (List (List K)) := do
  let vars ← splitRows L orders.length
  if 1 ∈ orders then .ok (vars.getD (orders.idxOf 1) [])
  else unliftLoop pw (vars.zip orders)

end Opinf
