import Verif.Model.Core
import Mathlib.Data.Int.Cast.Basic

/-!
# Model of `opinf.ddt`: finite difference estimation of time derivatives

Source: /repo/src/opinf/ddt/_finite_difference.py and /repo/src/opinf/ddt/_base.py.
Snapshot matrices are `Mat K` (one row per state variable, one column per time instance).
Simplification: exact arithmetic; `np.empty_like` of an integer array (which would truncate the
derivatives) is not modelled, i.e. the data are floating point.
-/

namespace Opinf

open List

variable {K : Type*}

/-- The 18 finite difference schemes of `UniformFiniteDifferencer._schemes`:
_finite_difference.py:799-821. -/
inductive Scheme
  | fwd1 | fwd2 | fwd3 | fwd4 | fwd5 | fwd6
  | bwd1 | bwd2 | bwd3 | bwd4 | bwd5 | bwd6
  | ctr2 | ctr4 | ctr6
  | ord2 | ord4 | ord6
  deriving DecidableEq, Repr

/-- `scheme.__name__` as a list of characters. -/
def Scheme.name : Scheme → List Char
  | .fwd1 => ['f', 'w', 'd', '1'] | .fwd2 => ['f', 'w', 'd', '2'] | .fwd3 => ['f', 'w', 'd', '3']
  | .fwd4 => ['f', 'w', 'd', '4'] | .fwd5 => ['f', 'w', 'd', '5'] | .fwd6 => ['f', 'w', 'd', '6']
  | .bwd1 => ['b', 'w', 'd', '1'] | .bwd2 => ['b', 'w', 'd', '2'] | .bwd3 => ['b', 'w', 'd', '3']
  | .bwd4 => ['b', 'w', 'd', '4'] | .bwd5 => ['b', 'w', 'd', '5'] | .bwd6 => ['b', 'w', 'd', '6']
  | .ctr2 => ['c', 't', 'r', '2'] | .ctr4 => ['c', 't', 'r', '4'] | .ctr6 => ['c', 't', 'r', '6']
  | .ord2 => ['o', 'r', 'd', '2'] | .ord4 => ['o', 'r', 'd', '4'] | .ord6 => ['o', 'r', 'd', '6']

/-- All keys of `_schemes`. -/
def allSchemes : List Scheme :=
  [.fwd1, .fwd2, .fwd3, .fwd4, .fwd5, .fwd6, .bwd1, .bwd2, .bwd3, .bwd4, .bwd5, .bwd6,
    .ctr2, .ctr4, .ctr6, .ord2, .ord4, .ord6]

/-- Lookup `_schemes[scheme]` with the `ValueError` of _finite_difference.py:834-836. -/
def schemeOfName (s : List Char) : Except Err Scheme :=
  match allSchemes.find? (fun x => x.name = s) with
  | some x => .ok x
  | none => .error .value

/-- The `mode` argument of `_finite_difference`. -/
inductive Mode | fwd | bwd | ctr
  deriving DecidableEq, Repr

/-- Python's `l[a:b]` for integer (possibly negative) bounds; `none` means open. -/
def pySlice {α : Type*} (a : Int) (b : Option Int) (l : List α) : List α :=
  let n := l.length
  let norm : Int → Nat := fun i => if i < 0 then (i + n).toNat else min i.toNat n
  let lo := norm a
  let hi := match b with | none => n | some b => norm b
  (l.take hi).drop lo

/-- `cols` of `_finite_difference`: _finite_difference.py:74-82. -/
def Mode.cols {α : Type*} (m : Mode) (order : Nat) (l : List α) : List α :=
  match m with
  | .fwd => pySlice 0 (some (-(order : Int))) l
  | .bwd => pySlice order none l
  | .ctr => pySlice ((order / 2 : Nat) : Int) (some (-((order / 2 : Nat) : Int))) l

/-- Loop over the coefficients accumulating `coeff * states[:, j : k - order + j]` in one row:
_finite_difference.py:85-87; `w` is `k - order`. -/
def fdLoop [Semiring K] [DecidableEq K] (row : List K) (w : Nat) :
    List K → Nat → List K → List K
  | [], _, acc => acc
  | c :: cs, j, acc =>
    fdLoop row w cs (j + 1) (if c ≠ 0 then vadd acc (vsmul c ((row.drop j).take w)) else acc)

/-- Apply a slicing of columns to every row. -/
def Mat.mapCols (f : List K → List K) (w : Nat) (A : Mat K) : Mat K := ⟨A.nrows, w, A.rows.map f⟩

/-- `_finite_difference(states, coeffs, mode, inputs)`: _finite_difference.py:38-91.
`np.zeros((r, k - order))` raises `ValueError` when `k < order`. -/
def finiteDifference [Semiring K] [DecidableEq K] (states : Mat K) (coeffs : List K) (mode : Mode)
    (inputs : Option (Mat K)) : Except Err (Mat K × Mat K × Option (Mat K)) :=
  let order := coeffs.length - 1
  let k := states.ncols
  if k < order then .error .value
  else
    let w := k - order
    .ok (states.mapCols (mode.cols order) w,
      ⟨states.nrows, w, states.rows.map fun row => fdLoop row w coeffs 0 (replicate w 0)⟩,
      inputs.map (Mat.mapCols (mode.cols order) w))

/-- Integer coefficients and denominator of the forward, backward and central schemes
(_finite_difference.py:123, 155, 188, 221, 254, 288, 321, 353, 386, 419, 452, 487, 520, 553, 587). -/
def Scheme.table : Scheme → Option (Mode × List Int × Nat)
  | .fwd1 => some (.fwd, [-1, 1], 1)
  | .fwd2 => some (.fwd, [-3, 4, -1], 2)
  | .fwd3 => some (.fwd, [-11, 18, -9, 2], 6)
  | .fwd4 => some (.fwd, [-25, 48, -36, 16, -3], 12)
  | .fwd5 => some (.fwd, [-137, 300, -300, 200, -75, 12], 60)
  | .fwd6 => some (.fwd, [-147, 360, -450, 400, -225, 72, -10], 60)
  | .bwd1 => some (.bwd, [-1, 1], 1)
  | .bwd2 => some (.bwd, [1, -4, 3], 2)
  | .bwd3 => some (.bwd, [-2, 9, -18, 11], 6)
  | .bwd4 => some (.bwd, [3, -16, 36, -48, 25], 12)
  | .bwd5 => some (.bwd, [-12, 75, -200, 300, -300, 137], 60)
  | .bwd6 => some (.bwd, [10, -72, 225, -400, 450, -360, 147], 60)
  | .ctr2 => some (.ctr, [-1, 0, 1], 2)
  | .ctr4 => some (.ctr, [1, -8, 0, 8, -1], 12)
  | .ctr6 => some (.ctr, [-1, 9, -45, 0, 45, -9, 1], 60)
  | .ord2 | .ord4 | .ord6 => none

/-- `np.array([...]) / (den * dt)`. -/
def scaled [Field K] (dt : K) (c : List Int) (den : Nat) : List K :=
  c.map fun z : Int => (z : K) / ((den : K) * dt)

/-- `-coeffs[::-1]`. -/
def negRev [Neg K] (c : List K) : List K := c.reverse.map (- ·)

/-- `ddt_uniform(states, dt, order)` for one row: front coefficients `fronts` (one list per front
column), central scheme in the interior, reversed and negated front coefficients at the end:
_finite_difference.py:1054-1090. -/
def ddtUniformRow [Field K] [DecidableEq K] (fronts : List (List K)) (ctr : List K) (row : List K) :
    List K :=
  let s := ctr.length
  let w := row.length - (s - 1)
  (fronts.map fun c => dot (row.take s) c)
    ++ fdLoop row w ctr 0 (replicate w 0)
    ++ (fronts.reverse.map fun c => dot (row.drop (row.length - s)) (negRev c))

/-- Front coefficients of `ddt_uniform`: _finite_difference.py:1057, 1066-1067, 1078-1080. -/
def frontTable : Nat → Option (List (List Int) × Nat × Scheme)
  | 2 => some ([[-3, 4, -1]], 2, .ctr2)
  | 4 => some ([[-25, 48, -36, 16, -3], [-3, -10, 18, -6, 1]], 12, .ctr4)
  | 6 => some ([[-147, 360, -450, 400, -225, 72, -10], [-10, -77, 150, -100, 50, -15, 2],
      [2, -24, -35, 80, -30, 8, -1]], 60, .ctr6)
  | _ => none

/-- `ddt_uniform(states, dt, order)`: _finite_difference.py:1026-1095. With fewer than `order + 1`
snapshots the product `states[:, :order+1] @ coeffs0` raises `ValueError`; orders other than
2, 4, 6 raise `NotImplementedError`. -/
def ddtUniform [Field K] [DecidableEq K] (states : Mat K) (dt : K) (order : Nat) :
    Except Err (Mat K) :=
  match frontTable order with
  | none => .error .notImplemented
  | some (fronts, den, ctr) =>
    match ctr.table with
    | none => .error .notImplemented
    | some (_, cc, cden) =>
      if states.ncols < order + 1 then .error .value
      else .ok ⟨states.nrows, states.ncols, states.rows.map
        (ddtUniformRow (fronts.map fun c => scaled dt c den) (scaled dt cc cden))⟩

/-- Order parsed from the name: `int(schema[3])`. -/
def Scheme.order (s : Scheme) : Nat := (s.name.getD 3 '0').toNat - '0'.toNat

/-- `scheme(states, dt, inputs)`: the 15 pure schemes and `ord2/4/6`
(`_mixed_differences`, _finite_difference.py:592-597). -/
def Scheme.run [Field K] [DecidableEq K] (s : Scheme) (states : Mat K) (dt : K)
    (inputs : Option (Mat K)) : Except Err (Mat K × Mat K × Option (Mat K)) :=
  match s.table with
  | some (mode, c, den) => finiteDifference states (scaled dt c den) mode inputs
  | none => do
    let d ← ddtUniform states dt s.order
    return (states, d, inputs)

/-- The `inputs` argument of `estimate`: one- or two-dimensional. -/
inductive InputArr (K : Type*)
  | vec (u : List K)
  | mat (U : Mat K)
  deriving DecidableEq, Repr

/-- `inputs.reshape((1, -1))` for one-dimensional inputs: ddt/_base.py:110-111. -/
def InputArr.toMat : InputArr K → Mat K
  | .vec u => ⟨1, u.length, [u]⟩
  | .mat U => U

/-- `UniformFiniteDifferencer.estimate(states, inputs)`: _check_dimensions of ddt/_base.py:101-116
(without the check against the time domain) followed by the scheme
(_finite_difference.py:883-884). -/
def Scheme.estimate [Field K] [DecidableEq K] (s : Scheme) (dt : K) (states : Mat K)
    (inputs : Option (InputArr K)) : Except Err (Mat K × Mat K × Option (Mat K)) :=
  match inputs with
  | none => s.run states dt none
  | some U =>
    if U.toMat.ncols ≠ states.ncols then .error .dimensionality
    else s.run states dt (some U.toMat)

/-- `UniformFiniteDifferencer.mask(arr)` on the last axis: _finite_difference.py:912-925. The mode
and the order are parsed from the scheme name. -/
def Scheme.mask {α : Type*} (s : Scheme) (l : List α) : Except Err (List α) :=
  let mode := s.name.take 3
  let order := s.order
  if mode = ['o', 'r', 'd'] then .ok l
  else if mode = ['f', 'w', 'd'] then .ok (pySlice 0 (some (-(order : Int))) l)
  else if mode = ['b', 'w', 'd'] then .ok (pySlice order none l)
  else if mode = ['c', 't', 'r'] then
    .ok (pySlice ((order / 2 : Nat) : Int) (some (-((order / 2 : Nat) : Int))) l)
  else .error .runtime

/-- Constructor check `np.allclose(np.diff(t), diff[0])` modelled as exact equality of all
differences with the first one: _finite_difference.py:829-831. (`diffs[0]` of an empty array raises
`IndexError`.) -/
def uniformDomain [Sub K] [DecidableEq K] (t : List K) : Except Err K :=
  match zipWith (fun a b => b - a) t t.tail with
  | [] => .error .index
  | d :: ds => if ds.all (· = d) then .ok d else .error .value

/-- One interior value of `numpy.gradient` with spacings `hs = t[i]-t[i-1]`, `hd = t[i+1]-t[i]`
(numpy documentation of `gradient`; external code, trusted). -/
def gradInterior [Field K] (hs hd f0 f1 f2 : K) : K :=
  -(hd) / (hs * (hs + hd)) * f0 + (hd - hs) / (hs * hd) * f1 + hs / (hd * (hs + hd)) * f2

/-- First value of `numpy.gradient(edge_order=2)`. -/
def gradFirst [Field K] (dx1 dx2 f0 f1 f2 : K) : K :=
  -(2 * dx1 + dx2) / (dx1 * (dx1 + dx2)) * f0 + (dx1 + dx2) / (dx1 * dx2) * f1
    - dx1 / (dx2 * (dx1 + dx2)) * f2

/-- Last value of `numpy.gradient(edge_order=2)`. -/
def gradLast [Field K] (dx1 dx2 f0 f1 f2 : K) : K :=
  dx2 / (dx1 * (dx1 + dx2)) * f0 - (dx2 + dx1) / (dx1 * dx2) * f1
    + (2 * dx2 + dx1) / (dx2 * (dx1 + dx2)) * f2

/-- Interior values for consecutive triples, and the last value once three points remain. -/
def gradTail [Field K] : List K → List K → List K
  | t0 :: t1 :: t2 :: ts, f0 :: f1 :: f2 :: fs =>
    gradInterior (t1 - t0) (t2 - t1) f0 f1 f2 ::
      match ts, fs with
      | [], _ => [gradLast (t1 - t0) (t2 - t1) f0 f1 f2]
      | _, _ => gradTail (t1 :: t2 :: ts) (f1 :: f2 :: fs)
  | _, _ => []

/-- `np.gradient(f, t, edge_order=2)` for one row; fewer than three points raise `ValueError`. -/
def gradRow [Field K] (t f : List K) : Except Err (List K) :=
  match t, f with
  | t0 :: t1 :: t2 :: _, f0 :: f1 :: f2 :: _ =>
    .ok (gradFirst (t1 - t0) (t2 - t1) f0 f1 f2 :: gradTail t f)
  | _, _ => .error .value

/-- `ddt_nonuniform(states, t)` (_finite_difference.py:1098-1122) and
`NonuniformFiniteDifferencer.estimate` (:985-994 with ddt/_base.py:101-116). -/
def ddtNonuniform [Field K] (t : List K) (states : Mat K) : Except Err (Mat K) :=
  if states.ncols ≠ t.length then .error .dimensionality
  else do
    let rows ← states.rows.mapM (gradRow t)
    return ⟨states.nrows, states.ncols, rows⟩

/-- The column range `verify()` compares the estimates with: ddt/_base.py:284-289. As written,
`np.argmin(la.norm(Q - Q_est[:, 0].reshape((-1, 1))), axis=0)` takes the norm of the whole matrix,
so the argument of `argmin` is a single number and `start` is the index of the minimum of a
one-element array. -/
def verifyStart (norms : List K) [LinearOrder K] : Nat :=
  match norms with
  | [] => 0
  | x :: xs => (xs.zipIdx 1).foldl (fun (best : K × Nat) y => if y.1 < best.1 then y else best) (x, 0)
      |>.2

/-- Reference derivatives used by `verify()` for `w` returned columns; `total` is the single
Frobenius norm computed by the code. -/
def verifyTruth [LinearOrder K] (total : K) (dQ : List K) (w : Nat) : List K :=
  (dQ.drop (verifyStart [total])).take w

end Opinf
