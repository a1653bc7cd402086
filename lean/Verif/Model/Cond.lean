import Verif.Model.Lstsq
import Verif.Model.Post

/-! Model of the condition numbers reported by the least-squares solvers: `cond()`, `regcond()`, `tcond()` and
`augcond` in `lstsq/_base.py`, `lstsq/_tikhonov.py`, `lstsq/_tsvd.py` and `lstsq/_total.py`.

`np.linalg.cond` and `scipy.linalg.svd` are parameters. A division by zero gives the floating point values of
`ratio` (`inf`, or `nan` for `0 / 0`). -/

namespace Opinf

open List

variable {K : Type}

/-- `x.max()` of a one-dimensional array; an empty array raises `ValueError`. -/
def arrMax [LinearOrder K] : List K → Except Err K
  | [] => .error .value
  | x :: xs => .ok (xs.foldl max x)

/-- `x.min()`. -/
def arrMin [LinearOrder K] : List K → Except Err K
  | [] => .error .value
  | x :: xs => .ok (xs.foldl min x)

/-- `x.max() / x.min()`. -/
def spread [Field K] [LinearOrder K] (x : List K) : Except Err (Val K) := do
  let M ← arrMax x
  let m ← arrMin x
  .ok (ratio M m)

/-- `np.sqrt` of a nonnegative floating point value. -/
def Val.sqrt (sqrt : K → K) : Val K → Val K
  | .num x => .num (sqrt x)
  | .inf => .inf
  | .ninf => .nan
  | .nan => .nan

/-- `SolverTemplate.cond()`, inherited by the plain, Tikhonov, truncated SVD and total least-squares solvers:
_base.py:195-204. `cond` is `np.linalg.cond`; `_require_trained` (_base.py:20-23) raises `AttributeError`. -/
def baseCond (cond : Mat K → Except Err (Val K)) (data : Option (Mat K × Mat K)) : Except Err (Val K) :=
  match data with
  | none => .error .attribute
  | some (D, _) => cond D

/-- `L2Solver.cond()`, inherited by `L2DecoupledSolver`: _tikhonov.py:377-382. -/
def L2.cond {R : Type} [Field K] [LinearOrder K] (s : L2 R K) : Except Err (Val K) :=
  match s.data, s.pre with
  | some _, some p => spread p.svals
  | _, _ => .error .attribute

/-- `np.sqrt(svals2.max() / svals2.min())` with `svals2 = svals**2 + reg**2`: _tikhonov.py:395-396. -/
def regSpread [Field K] [LinearOrder K] (sqrt : K → K) (svals : List K) (reg : K) : Except Err (Val K) := do
  let v ← spread (svals.map fun x => x ^ 2 + reg ^ 2)
  .ok (v.sqrt sqrt)

/-- `L2Solver.regcond()`: _tikhonov.py:384-396. -/
def L2.regcond [Field K] [LinearOrder K] (sqrt : K → K) (s : L2 K K) : Except Err (Val K) :=
  match s.data with
  | none => .error .attribute
  | some _ => match s.reg with
    | none => .error .attribute
    | some reg => match s.pre with
      | none => .error .attribute
      | some p => regSpread sqrt p.svals reg

/-- `L2DecoupledSolver.regcond()`: _tikhonov.py:606-621. -/
def L2.regcondDec [Field K] [LinearOrder K] (sqrt : K → K) (s : L2 (List K) K) : Except Err (List (Val K)) :=
  match s.data with
  | none => .error .attribute
  | some _ => match s.reg with
    | none => .error .attribute
    | some regs => match s.pre with
      | none => .error .attribute
      | some p => regs.mapM (regSpread sqrt p.svals)

/-- `np.linalg.cond(np.vstack((D, G)))`. -/
def stackCond (cond : Mat K → Except Err (Val K)) (D G : Mat K) : Except Err (Val K) := do
  let A ← D.vstack G
  cond A

/-- `TikhonovSolver.regcond()`: _tikhonov.py:1005-1017. -/
def Tik.regcond (cond : Mat K → Except Err (Val K)) (s : Tik (Mat K) K) : Except Err (Val K) :=
  match s.data with
  | none => .error .attribute
  | some (D, _) => match s.reg with
    | none => .error .attribute
    | some G => stackCond cond D G

/-- `TikhonovDecoupledSolver.regcond()`: _tikhonov.py:1271-1290. -/
def Tik.regcondDec (cond : Mat K → Except Err (Val K)) (s : Tik (List (Mat K)) K) : Except Err (List (Val K)) :=
  match s.data with
  | none => .error .attribute
  | some (D, _) => match s.reg with
    | none => .error .attribute
    | some Gs => Gs.mapM (stackCond cond D)

/-- `x[i]` for a one-dimensional array and an integer index; negative indices count from the end. -/
def pyGet (x : List K) (i : Int) : Except Err K :=
  let j := if i < 0 then i + x.length else i
  if j < 0 then .error .index
  else match x[j.toNat]? with
    | some y => .ok y
    | none => .error .index

/-- `TruncatedSVDSolver.tcond()`: _tsvd.py:163-168. -/
def Tsvd.tcond [Field K] [DecidableEq K] (s : Tsvd K) : Except Err (Val K) :=
  match s.data, s.pre with
  | some _, some p => do
    let first ← pyGet p.svals 0
    match s.nmodes with
    | none => .error .type
    | some n => do
      let last ← pyGet p.svals (n - 1)
      .ok (ratio first last)
  | _, _ => .error .attribute

/-- A `TotalLeastSquaresSolver` together with its attribute `_augcond`. -/
structure TlsC (K : Type) where
  tls : Tls K
  aug : Option (Val K)
  deriving DecidableEq

/-- The augmented matrix `[D Zᵀ]`: _total.py:98. -/
def augmented [Zero K] (D Z : Mat K) : Mat K := ⟨D.nrows, D.ncols + Z.nrows, zipWith (· ++ ·) D.rows Z.t.rows⟩

/-- `fit`: _total.py:78-112, including the assignment of `_augcond` (line 100), which happens after the
decomposition and before the solution is computed. -/
def TlsC.fit [Field K] [LinearOrder K] (svd : Mat K → Except Err (Svd K))
    (solve : Mat K → Mat K → Except Err (Mat K)) (s : TlsC K) (D Z : NdArg K) : TlsC K × Except Err Unit :=
  let out := s.tls.fit svd solve D Z
  match templateFit D Z with
  | .error _ => (⟨out.1, s.aug⟩, out.2)
  | .ok (D, Z) =>
    if D.nrows < D.ncols + Z.nrows then (⟨out.1, s.aug⟩, out.2)
    else match svd (augmented D Z) with
      | .error _ => (⟨out.1, s.aug⟩, out.2)
      | .ok u => match spread u.s with
        | .error e => (⟨{ s.tls with data := some (D, Z) }, s.aug⟩, .error e)
        | .ok v => (⟨out.1, some v⟩, out.2)

/-- `augcond`: _total.py:127-133. -/
def TlsC.augcond (s : TlsC K) : Except Err (Val K) :=
  match s.tls.data, s.aug with
  | some _, some v => .ok v
  | _, _ => .error .attribute

/-- Whether `str(solver)` succeeds for a total least-squares solver: _total.py:63-75 after the template
_base.py:132-142. The text itself is not modelled. -/
def TlsC.str (cond : Mat K → Except Err (Val K)) (s : TlsC K) : Except Err Unit :=
  match s.tls.data with
  | none => .ok ()
  | some (D, _) => do
    let _ ← cond D
    match s.aug with
    | none => .error .attribute
    | some _ => .ok ()

end Opinf
