import Verif.Model.DdtCall
import Verif.Model.Rom

/-!
# `verify()` of lifting maps

/repo/src/opinf/lift/_base.py:88-153 (`LifterTemplate.verify`).

Simplifications: arithmetic is exact; the printed messages are left out. A method `lift_ddts` that returns
`NotImplemented` (the default) is modelled by the exception `notImplemented`. A lifting map whose result
contains NaN or Inf ends the call with the exception `nonfinite`; in the code such a result fails one of the
comparisons with VerificationError or is refused by `scipy.linalg.norm` with ValueError. The argument `t` is
passed on to `ddt.ddt` and may be anything that function accepts.
-/

namespace Opinf

open List

variable {K : Type}

/-- `Y.shape[1]`. -/
def Snap.shapeSecond : Snap K → Except Err Nat
  | .vec _ => .error .index
  | .mat k _ => .ok k

/-- The checks of `lift()` and `unlift()`: lift/_base.py:114-130. Returns `lifted_states`. -/
def LiftI.verifyUnlift [Field K] [LinearOrder K] (I : LiftI K) (Y : Snap K) : Except Err (Snap K) := do
  let L ← I.lift Y
  let k1 ← L.shapeSecond
  let k2 ← Y.shapeSecond
  insist (k1 == k2)
  let U ← I.unlift L
  insist (sameDims U Y)
  insist (allClose U Y)
  return L

/-- The finite difference check once `lift_ddts` is known to be implemented: lift/_base.py:135-153. -/
def LiftI.verifyEstimates [Field K] [LinearOrder K] (sqrt : K → K) (I : LiftI K) (tol : K) (t : DdtVal K)
    (Y L : Snap K) : Except Err Unit := do
  let E ← I.liftDdts Y (← ddtCall Y [t] [])
  insist (sameDims E L)
  compareRel sqrt tol E (← ddtCall L [t] [])

/-- The part of `verify()` concerned with `lift_ddts()`: lift/_base.py:132-153. -/
def LiftI.verifyLiftDdts [Field K] [LinearOrder K] (sqrt : K → K) (I : LiftI K) (tol : K) (t : Option (DdtVal K))
    (Y L : Snap K) : Except Err Unit :=
  match I.liftDdts Y Y, t with
  | .error .notImplemented, _ => .ok ()
  | .error e, _ => .error e
  | .ok _, none => .error .value
  | .ok _, some t => I.verifyEstimates sqrt tol t Y L

/-- `LifterTemplate.verify(states, t, tol)`: lift/_base.py:88-153. -/
def LiftI.verify [Field K] [LinearOrder K] (sqrt : K → K) (I : LiftI K) (tol : K) (t : Option (DdtVal K)) (Y : Snap K) :
    Except Err Unit := do
  let L ← I.verifyUnlift Y
  I.verifyLiftDdts sqrt tol t Y L

end Opinf
