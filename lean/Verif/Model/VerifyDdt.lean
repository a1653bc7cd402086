import Verif.Model.VerifyOp
import Verif.Model.FiniteDiff

/-!
# `verify()` of time derivative estimators

/repo/src/opinf/ddt/_base.py:43-330 (`DerivativeEstimatorTemplate`: the test problems, `verify_shapes`, `verify`) for
estimators of any class, and /repo/src/opinf/ddt/_finite_difference.py:823-884, 943-994 (the two finite difference
classes seen through this interface).

Simplifications: the random arrays of `verify_shapes` are arguments; arithmetic is exact; printing and plotting are left
out; `estimate` does not change the estimator; returned arrays are two-dimensional.
-/

namespace Opinf

open List

variable {K σ : Type}

/-- A derivative estimator: the time domain stored by the base class (_base.py:77-87), and whatever the class adds. -/
structure Est (K σ : Type) where
  times : List K
  own : σ
  deriving DecidableEq, Repr

/-- What `estimate` returns: a tuple of two or three items (the inputs may be `None`), or something else. -/
inductive EstOut (K : Type)
  | pair (Q D : Mat K)
  | triple (Q D : Mat K) (U : Option (Mat K))
  | other
  deriving DecidableEq, Repr

/-- The method `estimate(states, inputs)` of a class. -/
abbrev EstFn (K σ : Type) := Est K σ → Mat K → Option (Mat K) → Except Err (EstOut K)

/-- `_Q, _dQdt = outputs` after the check that there are two of them: _base.py:198-204. -/
def EstOut.two (e : Err) : EstOut K → Except Err (Mat K × Mat K)
  | .pair Q D => .ok (Q, D)
  | _ => .error e

/-- `_Q, _dQdt, _U = outputs` after the check that there are three of them, and that `_U` is not `None`:
_base.py:221-231. -/
def EstOut.three : EstOut K → Except Err (Mat K × Mat K × Mat K)
  | .triple Q D (some U) => .ok (Q, D, U)
  | _ => .error .verification

/-- `verify_shapes()` with the random arrays `Q` and `U`: _base.py:177-242. -/
def estShapes (est : EstFn K σ) (e : Est K σ) (Q U : Mat K) : Except Err Unit := do
  let x ← (← est e Q none).two .verification
  insist (decide (x.1.nrows = Q.nrows))
  insist (decide (x.2.nrows = Q.nrows))
  insist (decide (x.1.ncols = x.2.ncols))
  let y ← (← est e Q (some U)).three
  insist (decide (y.2.2.nrows = U.nrows))
  insist (decide (y.2.2.ncols = y.1.ncols))

/-- A test problem: a function and its derivative (_base.py:43-74). -/
structure DdtTest (K : Type) where
  fn : K → K
  deriv : K → K

/-- `np.array([test[1](t) for test in self.__tests])`: _base.py:277. -/
def testStates (tests : List (DdtTest K)) (t : List K) : Mat K :=
  ⟨tests.length, t.length, tests.map fun p => t.map p.fn⟩

/-- `np.array([test[2](t) for test in self.__tests])`: _base.py:278. -/
def testDdts (tests : List (DdtTest K)) (t : List K) : Mat K :=
  ⟨tests.length, t.length, tests.map fun p => t.map p.deriv⟩

/-- Size of one axis of an operation between two arrays: numpy stretches axes of size one. -/
def bdim (a b : Nat) : Except Err Nat :=
  if a = b then .ok a else if a = 1 then .ok b else if b = 1 then .ok a else .error .value

/-- Entry `(i, j)` of the stretched array. -/
def Mat.bget [Zero K] (A : Mat K) (i j : Nat) : K :=
  (A.rows.getD (if A.nrows = 1 then 0 else i) []).getD (if A.ncols = 1 then 0 else j) 0

/-- `A - B` for two-dimensional arrays, with broadcasting. -/
def bsub [Zero K] [Sub K] (A B : Mat K) : Except Err (Mat K) := do
  let n ← bdim A.nrows B.nrows
  let m ← bdim A.ncols B.ncols
  return ⟨n, m, (range n).map fun i => (range m).map fun j => A.bget i j - B.bget i j⟩

/-- `la.norm(A, axis=1)`. -/
def rowNorms [Semiring K] (sqrt : K → K) (A : Mat K) : List K := A.rows.map fun r => sqrt (sumSq r)

/-- `a / b` for one-dimensional arrays, with broadcasting. -/
def bdiv [Field K] [DecidableEq K] (a b : List K) : Except Err (List (Val K)) := do
  let n ← bdim a.length b.length
  return (range n).map fun i =>
    ratio (a.getD (if a.length = 1 then 0 else i) 0) (b.getD (if b.length = 1 then 0 else i) 0)

/-- `Q_est[:, 0].reshape((-1, 1))`: _base.py:285-287; `IndexError` if there are no columns. -/
def Mat.firstCol [Zero K] (A : Mat K) : Except Err (Mat K) :=
  if A.ncols = 0 then .error .index else .ok ⟨A.nrows, 1, A.rows.map fun r => [r.getD 0 0]⟩

/-- `dQdt[:, start : start + w]`: _base.py:288-289. -/
def Mat.colRange (A : Mat K) (start w : Nat) : Mat K :=
  ⟨A.nrows, min w (A.ncols - start), A.rows.map fun r => (r.drop start).take w⟩

/-- One pass through the loop of `verify()`, when the time domain has been replaced: the relative error of every test
problem, _base.py:277-295. The position `start` is computed as in the code: the norm is that of the whole matrix, see
`verifyStart`. -/
def estErrors [Field K] [LinearOrder K] (sqrt : K → K) (est : EstFn K σ) (tests : List (DdtTest K)) (e : Est K σ) :
    Except Err (List (Val K)) := do
  let x ← (← est e (testStates tests e.times) none).two .value
  let c ← x.1.firstCol
  let Z ← bsub (testStates tests e.times) c
  let truth := (testDdts tests e.times).colRange (verifyStart [matNorm sqrt Z.rows]) x.1.ncols
  let E ← bsub x.2 truth
  let v ← bdiv (rowNorms sqrt E) (rowNorms sqrt truth)
  return v.take tests.length

/-- The loop over the time steps: _base.py:274-295. Every pass replaces the time domain. -/
def estLoop [Field K] [LinearOrder K] (sqrt : K → K) (est : EstFn K σ) (tests : List (DdtTest K)) :
    List (List K) → Est K σ → Est K σ × Except Err (List (List (Val K)))
  | [], e => (e, .ok [])
  | t :: ts, e => match estErrors sqrt est tests { e with times := t } with
    | .error x => ({ e with times := t }, .error x)
    | .ok v => match estLoop sqrt est tests ts { e with times := t } with
      | (e', .error x) => (e', .error x)
      | (e', .ok vs) => (e', .ok (v :: vs))

/-- The errors of each test problem, in the order of the time steps: _base.py:294-295. -/
def byTest (n : Nat) (vs : List (List (Val K))) : List (List (Val K)) :=
  (range n).map fun i => vs.filterMap fun v => v[i]?

/-- `verify(return_errors=True)` over given time domains: _base.py:266-330. The original time domain is restored at the
end. -/
def estVerifyOn [Field K] [LinearOrder K] (sqrt : K → K) (est : EstFn K σ) (tests : List (DdtTest K))
    (grids : List (List K)) (e : Est K σ) (Q U : Mat K) : Est K σ × Except Err (List (List (Val K))) :=
  match estShapes est e Q U with
  | .error x => (e, .error x)
  | .ok () => match estLoop sqrt est tests grids e with
    | (e', .error x) => (e', .error x)
    | (e', .ok vs) => ({ e' with times := e.times }, .ok (byTest tests.length vs))

/-- `t = 1 + (dt * np.arange(n))`: _base.py:273-276. -/
def testGrid [Field K] (n : Nat) (dt : K) : List K := (range n).map fun j : Nat => 1 + dt * (j : K)

/-- The time steps `np.logspace(-12, -1, 12)[::-1]`: _base.py:269. -/
def testSteps [Field K] : List K := (range 12).map fun i : Nat => (1 / 10) ^ (i + 1)

/-- `verify(return_errors=True)`: _base.py:244-330. -/
def estVerify [Field K] [LinearOrder K] (sqrt : K → K) (est : EstFn K σ) (tests : List (DdtTest K)) (e : Est K σ)
    (Q U : Mat K) : Est K σ × Except Err (List (List (Val K))) :=
  estVerifyOn sqrt est tests (testSteps.map (testGrid 1001)) e Q U

/-! ### The finite difference classes -/

/-- The property `dt`, `t[1] - t[0]`: _finite_difference.py:838-842. -/
def stepOf [Sub K] : List K → Except Err K
  | t0 :: t1 :: _ => .ok (t1 - t0)
  | _ => .error .index

/-- Inputs with another number of columns than the states: _base.py:109-115. -/
def misaligned (Q : Mat K) : Option (Mat K) → Bool
  | none => false
  | some U => decide (U.ncols ≠ Q.ncols)

/-- A tuple of two arrays without inputs, and of three arrays with inputs. -/
def EstOut.tuple (Q D : Mat K) : Option (Mat K) → EstOut K
  | none => .pair Q D
  | some U => .triple Q D (some U)

/-- `UniformFiniteDifferencer.estimate(states, inputs)` with two-dimensional inputs: _finite_difference.py:883-884. -/
def uniformEst [Field K] [DecidableEq K] : EstFn K Scheme := fun e Q U =>
  if misaligned Q U then .error .dimensionality
  else do
    let dt ← stepOf e.times
    let x ← e.own.run Q dt U
    return EstOut.tuple x.1 x.2.1 x.2.2

/-- `NonuniformFiniteDifferencer.estimate(states, inputs)` with two-dimensional inputs: _finite_difference.py:986-994. -/
def nonuniformEst [Field K] : EstFn K Unit := fun e Q U =>
  if Q.ncols ≠ e.times.length then .error .dimensionality
  else if misaligned Q U then .error .dimensionality
  else do
    let D ← ddtNonuniform e.times Q
    return EstOut.tuple Q D U

end Opinf
