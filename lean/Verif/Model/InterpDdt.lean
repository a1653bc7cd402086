import Verif.Model.RomFit

/-!
# Interpolation-based time derivative estimation

Model of `opinf.ddt.InterpDerivativeEstimator`: /repo/src/opinf/ddt/_interpolation.py:14-243 with
/repo/src/opinf/ddt/_base.py:76-81, 101-116, 177-330. The interpolators of `scipy.interpolate` are external: a
constructor takes the time domain and the rows of an array and returns a vector-valued function of a time and the order
of the derivative, or raises. Arrays have one or two dimensions. Warnings, printing and plotting are not modelled.
-/

namespace Opinf

open List

variable {K : Type}

/-- An `InterpolatorClass` together with the constructor options: interpolation along the columns. -/
structure SplineLib (K : Type) where
  make : List K → List (List K) → Except Err (K → Nat → List K)

/-- `InterpDerivativeEstimator`: the attributes `time_domain`, `InterpolatorClass` with `options`, `new_time_domain`. -/
structure ItpDdt (K : Type) where
  times : List K
  lib : SplineLib K
  newTimes : Option (List K)

/-- The argument `InterpolatorClass`: a class or a string. -/
inductive SplineArg (K : Type)
  | cls (L : SplineLib K)
  | name (s : String)

/-- The interpolators known by name: _interpolation.py:58-64. -/
def SplineArg.resolve (lib : String → SplineLib K) : SplineArg K → Except Err (SplineLib K)
  | .cls L => .ok L
  | .name s => if s = "akima" ∨ s = "cubic" ∨ s = "pchip" then .ok (lib s) else .error .value

/-- Check of `new_time_domain`: _interpolation.py:88-99. `min()` of an empty array raises `ValueError`; an argument that
is not an array is modelled like an array that is not one-dimensional. -/
def checkNewTimes (times : List K) : Option (Arg K) → Except Err (Option (List K))
  | none => .ok none
  | some (.vec t2) => if t2.isEmpty ∨ times.isEmpty then .error .value else .ok (some t2)
  | some _ => .error .type

/-- The constructor: _interpolation.py:67-104 and _base.py:76-81. -/
def ItpDdt.create (lib : String → SplineLib K) (times : Arg K) (c : SplineArg K) (new : Option (Arg K)) :
    Except Err (ItpDdt K) :=
  match times with
  | .vec t => do
    let L ← c.resolve lib
    let t2 ← checkNewTimes t new
    return ⟨t, L, t2⟩
  | _ => .error .value

/-- Check of the states: _base.py:103-109. Returns the rows. -/
def ItpDdt.checkStates (E : ItpDdt K) : Snap K → Except Err (List (List K))
  | .vec _ => .error .dimensionality
  | .mat k rows => if k ≠ E.times.length then .error .dimensionality else .ok rows

/-- Check of the inputs against the number `k` of snapshots: _base.py:110-115. A one-dimensional array is reshaped to a
single row. -/
def checkInputRows (k : Nat) (U : Snap K) : Except Err (List (List K)) :=
  match U with
  | .vec u => if u.length ≠ k then .error .dimensionality else .ok [u]
  | .mat l rows => if l ≠ k then .error .dimensionality else .ok rows

/-- `spline(ts, ν)` as an array with `r` rows. -/
def sampleSpline [Zero K] (f : K → Nat → List K) (r : Nat) (ts : List K) (ν : Nat) : Snap K :=
  .mat ts.length ((range r).map fun i => ts.map fun t => (f t ν).getD i 0)

/-- The times at which the derivatives are estimated. -/
def ItpDdt.outTimes (E : ItpDdt K) : List K := E.newTimes.getD E.times

/-- An array over the time domain, evaluated at the new times: the array itself if there are none:
_interpolation.py:177-187. `f` is the interpolant. -/
def ItpDdt.moved [Zero K] (E : ItpDdt K) (rows : List (List K)) (f : K → Nat → List K) : Snap K :=
  match E.newTimes with
  | none => .mat E.times.length rows
  | some t2 => sampleSpline f rows.length t2 0

/-- `estimate(states)`: _interpolation.py:147-191. -/
def ItpDdt.estimate [Zero K] (E : ItpDdt K) (Q : Snap K) : Except Err (Snap K × Snap K) := do
  let rows ← E.checkStates Q
  let f ← E.lib.make E.times rows
  return (E.moved rows f, sampleSpline f rows.length E.outTimes 1)

/-- The inputs at the new times; the interpolant of the inputs is only built if there are new times:
_interpolation.py:180-186. -/
def ItpDdt.moveInputs [Zero K] (E : ItpDdt K) (us : List (List K)) : Except Err (Snap K) :=
  match E.newTimes with
  | none => .ok (.mat E.times.length us)
  | some t2 => do
    let g ← E.lib.make E.times us
    return sampleSpline g us.length t2 0

/-- `estimate(states, inputs)`: _interpolation.py:147-191. -/
def ItpDdt.estimateWith [Zero K] (E : ItpDdt K) (Q U : Snap K) : Except Err (Snap K × Snap K × Snap K) := do
  let rows ← E.checkStates Q
  let us ← checkInputRows E.times.length U
  let f ← E.lib.make E.times rows
  let W ← E.moveInputs us
  return (E.moved rows f, sampleSpline f rows.length E.outTimes 1, W)

/-- `mask(arr)`: _interpolation.py:193-235. The interpolators known by name are built with `axis=1`, which raises
`ValueError` for a one-dimensional array; the same is assumed of other classes. -/
def ItpDdt.mask [Zero K] (E : ItpDdt K) (A : Snap K) : Except Err (Snap K) :=
  match E.newTimes with
  | none => .ok A
  | some t2 => match A with
    | .vec _ => .error .value
    | .mat _ rows => do
      let f ← E.lib.make E.times rows
      return sampleSpline f rows.length t2 0

/-- The estimator as it is used by a reduced-order model. -/
def ItpDdt.toDdt [Zero K] (E : ItpDdt K) : DdtI K := ⟨E.estimate, E.estimateWith⟩

/-! ### Verification -/

/-- Number of rows of an array. -/
def Snap.nrowsOf : Snap K → Nat
  | .vec xs => xs.length
  | .mat _ rows => rows.length

/-- Raise `VerificationError` unless the condition holds. -/
def demand (b : Bool) : Except Err Unit := if b then .ok () else .error .verification

/-- `verify_shapes()`: _base.py:177-242; the random arrays are arguments. -/
def ItpDdt.verifyShapes [Zero K] (E : ItpDdt K) (Q U : Snap K) : Except Err Unit := do
  let x ← E.estimate Q
  demand (x.1.nrowsOf == Q.nrowsOf)
  demand (x.2.nrowsOf == Q.nrowsOf)
  demand (x.1.ncolumns == x.2.ncolumns)
  let y ← E.estimateWith Q U
  demand (y.2.2.nrowsOf == U.nrowsOf)
  demand (y.2.2.ncolumns == y.1.ncolumns)

/-- The loop over the time steps: every test replaces the time domain and calls `estimate`; the time domain is only
restored after the loop: _base.py:262-328. -/
def ItpDdt.verifyLoop [Zero K] (E : ItpDdt K) : List (List K × Snap K) → ItpDdt K × Except Err Unit
  | [] => (E, .ok ())
  | (t, Q) :: rest =>
    let E' := { E with times := t }
    match E'.estimate Q with
    | .error e => (E', .error e)
    | .ok _ => E'.verifyLoop rest

/-- `DerivativeEstimatorTemplate.verify()`: _base.py:244-330, with the random arrays and the test problems as arguments.
The comparison with the true derivatives only produces a report. -/
def ItpDdt.baseVerify [Zero K] (E : ItpDdt K) (Q U : Snap K) (tests : List (List K × Snap K)) :
    ItpDdt K × Except Err Unit :=
  match E.verifyShapes Q U with
  | .error e => (E, .error e)
  | .ok _ =>
    match E.verifyLoop tests with
    | (E', .error e) => (E', .error e)
    | (E', .ok _) => ({ E' with times := E.times }, .ok ())

/-- `InterpDerivativeEstimator.verify()`: _interpolation.py:238-243; the new time domain is set to `None` and restored
afterwards, unless an exception is raised. -/
def ItpDdt.verify [Zero K] (E : ItpDdt K) (Q U : Snap K) (tests : List (List K × Snap K)) :
    ItpDdt K × Except Err Unit :=
  match ({ E with newTimes := none } : ItpDdt K).baseVerify Q U tests with
  | (E', .error e) => (E', .error e)
  | (E', .ok _) => ({ E' with newTimes := E.newTimes }, .ok ())

end Opinf
