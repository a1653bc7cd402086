import Verif.Model.Interp
import Verif.Model.Basis
import Verif.Model.Verify
import Verif.Model.TransformIO

/-!
# `==` between interpolated operators and between linear bases

The other comparisons are `Op.beq`, `Model.beq` (Model/Mono), `Posterior.beq` (Model/Bayes),
`Sst.beq`, `multiEq` (Model/TransformIO; `BasisMulti.__eq__`, /repo/src/opinf/basis/_multi.py:154-163,
is the same function of the list of bases).
-/

namespace Opinf

open List

variable {K : Type}

/-- `op.shape` of a parametric operator: the shape of the first array
(/repo/src/opinf/operators/_base.py:1279-1284). -/
def firstShape (As : List (Mat K)) : Option (Nat × Nat) :=
  As.head?.map fun A => (A.nrows, A.ncols)

/-- `np.allclose` of two stacks of matrices of the same shape. -/
def closeMats [Field K] [LinearOrder K] : List (Mat K) → List (Mat K) → Bool
  | A :: As, B :: Bs => closeRows A.rows B.rows && closeMats As Bs
  | [], [] => true
  | _, _ => false

/-- `_InterpOperator.__eq__`: /repo/src/opinf/operators/_interpolate.py:282-316. The first line is
the comparison of the classes, the second the ones of the training parameters (None, shape,
values). -/
def Interp.pyEq [Field K] [LinearOrder K] (t u : Interp K) : Bool :=
  if t.kind ≠ u.kind then false
  else if t.params ≠ u.params then false
  else if t.cls ≠ u.cls then false
  else match t.entries, u.entries with
    | none, none => true
    | none, some _ => false
    | some _, none => false
    | some As, some Bs =>
      if firstShape As ≠ firstShape Bs then false else closeMats As Bs

/-- The comparison of the weights of two bases, /repo/src/opinf/basis/_linear.py:240-248: by
`np.allclose`. Comparing diagonal weights (stored as a sparse matrix) with a full matrix is an
exception raised by numpy, reported as `TypeError` here. -/
def weightsEq [Field K] [LinearOrder K] : Option (Weights K) → Option (Weights K) → Except Err Bool
  | none, none => .ok true
  | none, some _ => .ok false
  | some _, none => .ok false
  | some (.diag v), some (.diag w) => .ok (closeList v w)
  | some (.full A), some (.full B) => .ok (closeRows A.rows B.rows)
  | some _, some _ => .error .type

/-- `LinearBasis.__eq__`: _linear.py:232-249, with `np.allclose` for the weights. -/
def LinB.pyEq [Field K] [LinearOrder K] (a b : LinB K) : Except Err Bool :=
  if a.n ≠ b.n ∨ a.r ≠ b.r then .ok false
  else match weightsEq a.weights b.weights with
    | .error e => .error e
    | .ok false => .ok false
    | .ok true => .ok (decide (a.entries = b.entries))

end Opinf
