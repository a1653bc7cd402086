import Verif.Model.Affine

/-!
# The life of one affine operator object

The operations of `opinf.operators._affine._AffineOperator` that change an object
(`/repo/src/opinf/operators/_affine.py` and `_base.py`), one after the other, whether they raise or not.
-/

namespace Opinf

open List

variable {K : Type}

/-- One call that may change an affine operator: `set_entries` (_affine.py:192-228), the setter of
`parameter_dimension` (_base.py:1266-1276), `evaluate` (_affine.py:236-257, which may learn the parameter
dimension) or `_clear` (_base.py:1221-1224). -/
inductive AffStep (K : Type)
  | entries (e : EntArg K)
  | dimension (p : Nat)
  | evaluate (mu : Par K)
  | clear

/-- The object after the call, and whether the call raised; `set_entries` and the setter store nothing when
they raise (_affine.py:192-228, _base.py:1266-1276). -/
def AffStep.run [Semiring K] (a : Affine K) : AffStep K → Affine K × Except Err Unit
  | .entries e => match a.setEntries e with
    | .error err => (a, .error err)
    | .ok b => (b, .ok ())
  | .dimension p => match setParamDim a.p p with
    | .error err => (a, .error err)
    | .ok q => ({ a with p := q }, .ok ())
  | .evaluate mu => ((a.evaluate mu).1, match (a.evaluate mu).2 with
    | .error err => .error err
    | .ok _ => .ok ())
  | .clear => (a.clear, .ok ())

/-- Several calls; those that raise are caught by the caller and the next call follows. -/
def runAff [Semiring K] : Affine K → List (AffStep K) → Affine K
  | a, [] => a
  | a, s :: steps => runAff (s.run a).1 steps

end Opinf
