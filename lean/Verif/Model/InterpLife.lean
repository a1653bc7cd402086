import Verif.Model.Interp

/-!
# The life of one interpolated operator object

The operations of `opinf.operators._interpolate._InterpOperator` that change an object
(`/repo/src/opinf/operators/_interpolate.py`), one after the other, whether they raise or not.
-/

namespace Opinf

open List

variable {K : Type}

/-- One call that changes an interpolated operator: `set_training_parameters` (_interpolate.py:162-188,
also the setter of `training_parameters`, lines 157-160), `set_entries` (lines 198-239),
`set_interpolator` (lines 249-279) or `_clear` (lines 144-147). -/
inductive ItpStep (K : Type)
  | params (ps : List (Par K))
  | entries (e : EntArg K)
  | interpolator (c : Option ItpClass)
  | clear

/-- The object after the call, and whether the call raised. `set_training_parameters` stores nothing when
it raises; the other operations are those of the model of the class (_interpolate.py:144-279). -/
def ItpStep.run [AddMonoid K] [LinearOrder K] (lib : ItpLib K) (t : Interp K) :
    ItpStep K → Interp K × Except Err Unit
  | .params ps => match t.setParams ps with
    | .error e => (t, .error e)
    | .ok t' => (t', .ok ())
  | .entries e => t.setEntries lib e
  | .interpolator c => t.setInterpolator lib c
  | .clear => (t.clear, .ok ())

/-- Several calls; those that raise are caught by the caller and the next call follows. The second
component collects the outcomes. -/
def runItp [AddMonoid K] [LinearOrder K] (lib : ItpLib K) : Interp K → List (ItpStep K) →
    Interp K × List (Except Err Unit)
  | t, [] => (t, [])
  | t, s :: steps => let x := s.run lib t
    let y := runItp lib x.1 steps
    (y.1, x.2 :: y.2)

/-- The object made by the constructor without arguments other than the interpolator class:
_interpolate.py:88-107. -/
def Interp.blank (kind : OpKind) (c : Option ItpClass) : Interp K := ⟨kind, none, none, none, c, none⟩

end Opinf
