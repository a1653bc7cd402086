import Verif.Model.Basis
import Verif.Model.Gridsearch
import Verif.Model.Lstsq

/-!
# Error measures

Model of /repo/src/opinf/post/_errors.py. Data arrays are lists of columns. Powers and roots of real numbers are
not computable; they are parameters (`PNorm`). A quotient by zero is `inf` or NaN as in numpy (`Val`). Time is
assumed to be ordered, so that no root of a negative number is taken.
-/

namespace Opinf

open List

variable {K : Type}

/-- A data array: one-dimensional, two-dimensional with `n` rows (given by its columns), or anything else. -/
inductive Data (K : Type)
  | vec (xs : List K)
  | mat (n : Nat) (cols : List (List K))
  | other
  deriving DecidableEq, Repr

/-- `Q.shape` as far as it matters. -/
def Data.shape : Data K → List Nat
  | .vec xs => [xs.length]
  | .mat n cols => [n, cols.length]
  | .other => []

/-- The functions `x ↦ x**p` and `x ↦ x**(1/p)` on nonnegative numbers. -/
structure PNorm (K : Type) where
  pow : K → K
  root : K → K

/-- The argument `p`: not a positive number, a positive finite number, or `np.inf`. -/
inductive POrd (K : Type)
  | bad
  | fin (pn : PNorm K)
  | inf

/-- The time argument: absent, one-dimensional, or of another dimension. -/
inductive TimeArg (K : Type)
  | none
  | times (ts : List K)
  | other

/-- `absolute_error / norm_of_data` for nonnegative numbers. -/
def ratio [Field K] [DecidableEq K] (a b : K) : Val K :=
  if b = 0 then (if a = 0 then .nan else .inf) else .num (a / b)

/-- `Qtrue - Qapprox`. -/
def subCols [Sub K] (A B : List (List K)) : List (List K) := zipWith vsub A B

/-- `_absolute_and_relative_error`: _errors.py:16-28. -/
def absRel [Field K] [DecidableEq K] (norm : List (List K) → Except Err K) (A B : List (List K)) :
    Except Err (K × Val K) := do
  let normOfData ← norm A
  let err ← norm (subCols A B)
  return (err, ratio err normOfData)

/-- `la.norm(Z, ord="fro")` (for one-dimensional arrays: the Euclidean norm); `sqrt` is the square root. -/
def frobNorm [Semiring K] (sqrt : K → K) (Z : List (List K)) : Except Err K :=
  .ok (sqrt (Z.map sumSq).sum)

/-- `projection_error(states, basis)`: _errors.py:31-57. -/
def projectionError [Field K] [DecidableEq K] (sqrt : K → K) (states : Data K) (V : Cols K) :
    Except Err (K × Val K) :=
  let run (cols : List (List K)) := absRel (frobNorm sqrt) cols
    (cols.map fun q => vecMat V.n (matVec V.cols q) V.cols)
  match states with
  | .vec xs => if xs.length = V.n then run [xs] else .error .value
  | .mat n cols => if n = V.n then run cols else .error .value
  | .other => .error .value

/-- `frobenius_error(Qtrue, Qapprox)`: _errors.py:60-92. -/
def frobeniusError [Field K] [DecidableEq K] (sqrt : K → K) (A B : Data K) : Except Err (K × Val K) :=
  if A.shape ≠ B.shape then .error .value
  else match A, B with
    | .mat _ A, .mat _ B => absRel (frobNorm sqrt) A B
    | _, _ => .error .value

section ordered

variable [Field K] [LinearOrder K]

/-- `np.sum(np.abs(z)**p)` for one column. -/
def powSum (pn : PNorm K) (c : List K) : K := (c.map fun x => pn.pow |x|).sum

/-- `la.norm(z, ord=p)` for one column; the largest entry of an empty array raises ValueError. -/
def colNorm : POrd K → List K → Except Err K
  | .bad, _ => .error .value
  | .fin pn, c => .ok (pn.root (powSum pn c))
  | .inf, c => maxAbsOf c

/-- `norm_of_data.max()` for `normalize=True`: _errors.py:141-142. -/
def normData (normalize : Bool) (ns : List K) : Except Err (List K) :=
  if normalize then do
    let m ← maxOf ns
    return replicate ns.length m
  else .ok ns

/-- `lp_error(Qtrue, Qapprox, p, normalize)`: _errors.py:95-149. One-dimensional data are a single column. -/
def lpError (p : POrd K) (normalize : Bool) (A B : Data K) : Except Err (List K × List (Val K)) :=
  let run (A B : List (List K)) : Except Err (List K × List (Val K)) := do
    let ns ← A.mapM (colNorm p)
    let ns ← normData normalize ns
    let es ← (subCols A B).mapM (colNorm p)
    return (es, zipWith ratio es ns)
  match p with
  | .bad => .error .value
  | _ => if A.shape ≠ B.shape then .error .value
    else match A, B with
      | .vec a, .vec b => run [a] [b]
      | .mat _ A, .mat _ B => run A B
      | _, _ => .error .value

/-- `scipy.integrate.trapezoid(z, t)`. -/
def trapz : List K → List K → K
  | z0 :: z1 :: zs, t0 :: t1 :: ts => (t1 - t0) * (z0 + z1) / 2 + trapz (z1 :: zs) (t1 :: ts)
  | _, _ => 0

/-- `pnorm` for finite `p`: _errors.py:214-216. -/
def LpNorm (pn : PNorm K) (ts : List K) (Z : List (List K)) : Except Err K :=
  .ok (pn.root (trapz (Z.map (powSum pn)) ts))

/-- `pnorm` for `p = np.inf`: _errors.py:219-221. -/
def supNorm (Z : List (List K)) : Except Err K := do maxOf (← Z.mapM maxAbsOf)

/-- The columns after `np.atleast_2d`: _errors.py:199-203. -/
def Data.columns : Data K → Option (List (List K))
  | .vec xs => some (xs.map fun x => [x])
  | .mat _ cols => some cols
  | .other => none

/-- `Lp_error(Qtrue, Qapprox, t, p)`: _errors.py:152-226. -/
def LpError (p : POrd K) (t : TimeArg K) (A B : Data K) : Except Err (K × Val K) :=
  match p with
  | .bad => .error .value
  | p => if A.shape ≠ B.shape then .error .value
    else match A.columns, B.columns with
      | some A, some B => match p, t with
        | .fin _, .none => .error .value
        | .fin _, .other => .error .value
        | .fin pn, .times ts => if A.length ≠ ts.length then .error .value else absRel (LpNorm pn ts) A B
        | _, _ => absRel supNorm A B
      | _, _ => .error .value

end ordered

end Opinf
