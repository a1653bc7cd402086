import Verif.Model.Operators
import Mathlib.Algebra.Order.Field.Basic

/-!
# Model of `opinf.lstsq`: the least-squares solvers

Source: /repo/src/opinf/lstsq/_base.py, _tikhonov.py, _tsvd.py, _total.py. The routines of
`scipy.linalg` (`svd`, `lstsq`, `solve`) are external: they appear as function parameters, and the
theorems state what they assume of their results. Exact arithmetic over an ordered field; a result
with NaN/Inf entries (division by zero) is the outcome `Err.nonfinite`. Warnings are not modelled.
-/

namespace Opinf

open List

variable {K : Type}

/-! ### Arrays -/

/-- An array argument: one-dimensional, two-dimensional, or anything else. -/
inductive NdArg (K : Type)
  | vec (xs : List K)
  | mat (A : Mat K)
  | other
  deriving DecidableEq

/-- `A.T`. -/
def Mat.t [Zero K] (A : Mat K) : Mat K := ⟨A.ncols, A.nrows, transpose A.ncols A.rows⟩

/-- `A @ B` for arrays whose shapes are known to fit. -/
def Mat.mul [Semiring K] (A B : Mat K) : Mat K := ⟨A.nrows, B.ncols, matMul B.ncols A.rows B.rows⟩

/-- `np.vstack((A, B))`, which raises `ValueError` unless the widths agree. -/
def Mat.vstack (A B : Mat K) : Except Err (Mat K) :=
  if A.ncols = B.ncols then .ok ⟨A.nrows + B.nrows, A.ncols, A.rows ++ B.rows⟩ else .error .value

/-- `A + B` with broadcasting of `(1, 1)` arrays (the only broadcasting that square arrays allow). -/
def Mat.addB [Add K] [Zero K] (A B : Mat K) : Except Err (Mat K) :=
  if A.nrows = B.nrows ∧ A.ncols = B.ncols then
    .ok ⟨A.nrows, A.ncols, zipWith vadd A.rows B.rows⟩
  else if A.nrows = 1 ∧ A.ncols = 1 then
    .ok ⟨B.nrows, B.ncols, B.rows.map (·.map (A.e00 + ·))⟩
  else if B.nrows = 1 ∧ B.ncols = 1 then
    .ok ⟨A.nrows, A.ncols, A.rows.map (·.map (· + B.e00))⟩
  else .error .value

/-- `c * A` / `A / c`. -/
def Mat.smul [Mul K] (c : K) (A : Mat K) : Mat K := ⟨A.nrows, A.ncols, A.rows.map (vsmul c)⟩

/-- `np.eye(d)`. -/
def Mat.eye (K : Type) [Zero K] [One K] (d : Nat) : Mat K := ⟨d, d, Opinf.eye d⟩

/-- `np.diag(v)`. -/
def Mat.diag [Zero K] (v : List K) : Mat K :=
  ⟨v.length, v.length, (range v.length).map fun i =>
    (range v.length).map fun j => if i = j then v.getD i 0 else 0⟩

/-- `_symmetrize(A) = (A.T + A) / 2`: _tikhonov.py:23-24. -/
def symmetrize [Field K] (A : Mat K) : Mat K :=
  ⟨A.nrows, A.ncols, (zipWith vadd A.t.rows A.rows).map fun row => row.map (· / 2)⟩

/-- Column `j` as a one-column array. -/
def Mat.colMat [Zero K] (A : Mat K) (j : Nat) : Mat K :=
  ⟨A.nrows, 1, A.rows.map fun row => [row.getD j 0]⟩

/-! ### SolverTemplate -/

/-- `SolverTemplate.fit(data_matrix, lhs_matrix)`: _base.py:154-181; the stored `(D, Z)`. -/
def templateFit (D Z : NdArg K) : Except Err (Mat K × Mat K) :=
  match D with
  | .mat D => match (match Z with
      | .vec z => some (⟨1, z.length, [z]⟩ : Mat K)
      | .mat Z => some Z
      | .other => none) with
    | none => .error .value
    | some Z => if Z.ncols ≠ D.nrows then .error .dimensionality else .ok (D, Z)
  | _ => .error .value

/-- `‖v‖₂²` as computed by `np.sum(v ** 2)`. -/
def sumSq [Semiring K] (v : List K) : K := (v.map fun x => x ^ 2).sum

/-- The shape check and reshape at the top of `residual`: _base.py:228-234. -/
def checkOhat (r d : Nat) (O : NdArg K) : Except Err (Mat K) :=
  match O with
  | .vec xs => if r = 1 then (if xs.length = d then .ok ⟨1, d, [xs]⟩ else .error .dimensionality)
      else .error .dimensionality
  | .mat A => if A.nrows = r ∧ A.ncols = d then .ok A else .error .dimensionality
  | .other => .error .dimensionality

/-- `residual(Ohat)`: _base.py:205-239. -/
def residual [CommRing K] (data : Option (Mat K × Mat K)) (O : NdArg K) : Except Err (List K) :=
  match data with
  | none => .error .attribute
  | some (D, Z) => do
    let A ← checkOhat Z.nrows D.ncols O
    return zipWith (fun o z => sumSq (vsub (matVec D.rows o) z)) A.rows Z.rows

/-! ### PlainSolver -/

/-- `PlainSolver`: _base.py:356-481; the state is the stored data. -/
structure Plain (K : Type) where
  data : Option (Mat K × Mat K)
  deriving DecidableEq

/-- `fit`: _base.py:393-412. -/
def Plain.fit (s : Plain K) (D Z : NdArg K) : Plain K × Except Err Unit :=
  match templateFit D Z with
  | .error e => (s, .error e)
  | .ok x => (⟨some x⟩, .ok ())

/-- `solve`: _base.py:414-424. Without training, `self.lhs_matrix.T` raises `AttributeError`. -/
def Plain.solve [Zero K] (lstsq : Mat K → Mat K → Except Err (Mat K)) (s : Plain K) :
    Except Err (Mat K) :=
  match s.data with
  | none => .error .attribute
  | some (D, Z) => do return (← lstsq D Z.t).t

/-! ### L2Solver and L2DecoupledSolver -/

/-- Result of `scipy.linalg.svd(A, full_matrices=False)`. -/
structure Svd (K : Type) where
  Phi : Mat K
  s : List K
  PsiT : Mat K
  deriving DecidableEq

/-- The attributes `_svals`, `_ZPhi`, `_PsiT`: _tikhonov.py:305-309. -/
structure L2Pre (K : Type) where
  svals : List K
  ZPhi : Mat K
  PsiT : Mat K
  deriving DecidableEq

/-- State of an `L2Solver` (`R = K`) or an `L2DecoupledSolver` (`R = List K`). -/
structure L2 (R K : Type) where
  reg : Option R
  data : Option (Mat K × Mat K)
  pre : Option (L2Pre K)
  deriving DecidableEq

/-- `L2Solver(regularizer)`: the setter _tikhonov.py:256-264 for a scalar. Passing a non-scalar raises
`TypeError` before anything is assigned. -/
def L2.setReg [Zero K] [LT K] [DecidableLT K] (s : L2 K K) (reg : Option K) :
    L2 K K × Except Err Unit :=
  match reg with
  | none => ({ s with reg := none }, .ok ())
  | some x => if x < 0 then (s, .error .value) else ({ s with reg := some x }, .ok ())

/-- `L2Solver.fit`: _tikhonov.py:292-311. The data are stored before the decomposition is computed. -/
def L2.fit {R : Type} [Semiring K] (svd : Mat K → Except Err (Svd K)) (s : L2 R K) (D Z : NdArg K) :
    L2 R K × Except Err Unit :=
  match templateFit D Z with
  | .error e => (s, .error e)
  | .ok (D, Z) =>
    let s := { s with data := some (D, Z) }
    match svd D with
    | .error e => (s, .error e)
    | .ok u => ({ s with pre := some ⟨u.s, Z.mul u.Phi, u.PsiT⟩ }, .ok ())

/-- One row of `(self._ZPhi * svals_inv.T) @ self._PsiT`: _tikhonov.py:324-326. -/
def l2Row [Field K] (p : L2Pre K) (lam : K) (zphi : List K) : List K :=
  vecMat p.PsiT.ncols
    (zipWith (· * ·) zphi (p.svals.map fun s => s / (s ^ 2 + lam ^ 2))) p.PsiT.rows

/-- `L2Solver.solve()`: _tikhonov.py:313-326. -/
def L2.solve [Field K] [DecidableEq K] (s : L2 K K) : Except Err (Mat K) :=
  match s.data with
  | none => .error .attribute
  | some _ => match s.reg with
    | none => .error .attribute
    | some lam => match s.pre with
      | none => .error .attribute
      | some p => if p.svals.any (fun x => decide (x ^ 2 + lam ^ 2 = 0)) then .error .nonfinite
          else .ok ⟨p.ZPhi.nrows, p.PsiT.ncols, p.ZPhi.rows.map (l2Row p lam)⟩

/-- `L2Solver.regresidual(Ohat)`: _tikhonov.py:398-425. -/
def L2.regresidual [Field K] (s : L2 K K) (O : NdArg K) : Except Err (List K) :=
  match s.data with
  | none => .error .attribute
  | some (D, Z) => match s.reg with
    | none => .error .attribute
    | some lam => do
      let res ← residual s.data O
      let A ← checkOhat Z.nrows D.ncols O
      return zipWith (· + ·) res (A.rows.map fun o => lam ^ 2 * sumSq o)

/-- `_check_sigmas(sigmas)` then division by `k`: _tikhonov.py:27-30, 372. -/
def checkSigmas [Field K] [LinearOrder K] (eps : K) (k : Nat) (res : List K) : Except Err (List K) :=
  if res.any (fun x => decide (x < eps)) then .error .runtime
  else if k = 0 then .error .nonfinite
  else .ok (res.map (· / (k : K)))

/-- `L2Solver.posterior()`: _tikhonov.py:369-373; means and precision matrices. -/
def L2.posterior [Field K] [LinearOrder K] (eps : K) (s : L2 K K) :
    Except Err (Mat K × List (Mat K)) := do
  let O ← s.solve
  match s.data, s.reg with
  | some (D, _), some lam => do
    let res ← s.regresidual (.mat O)
    let sig ← checkSigmas eps D.nrows res
    let DTD := symmetrize (D.t.mul D)
    let inv : Mat K := ⟨D.ncols, D.ncols,
      zipWith vadd DTD.rows ((Mat.eye K D.ncols).smul (lam ^ 2)).rows⟩
    return (O, sig.map fun x => inv.smul x⁻¹)
  | _, _ => .error .attribute

/-- `L2DecoupledSolver.regularizer` setter: _tikhonov.py:522-535. The array is assigned before its
length is compared with `r`. -/
def L2.setRegs [Zero K] [LT K] [DecidableLT K] (s : L2 (List K) K) (regs : Option (NdArg K)) :
    L2 (List K) K × Except Err Unit :=
  match regs with
  | none => ({ s with reg := none }, .ok ())
  | some (.vec xs) =>
    if xs.any (fun x => decide (x < 0)) then (s, .error .value)
    else
      let s' := { s with reg := some xs }
      match s.data with
      | none => (s', .ok ())
      | some (_, Z) => if xs.length ≠ Z.nrows then (s', .error .dimensionality) else (s', .ok ())
  | some _ => (s, .error .value)

/-- `L2DecoupledSolver.fit`: _tikhonov.py:538-553. -/
def L2.fitDec [Semiring K] (svd : Mat K → Except Err (Svd K)) (s : L2 (List K) K) (D Z : NdArg K) :
    L2 (List K) K × Except Err Unit :=
  match s.fit svd D Z with
  | (s, .error e) => (s, .error e)
  | (s, .ok ()) => match s.reg, s.data with
    | some xs, some (_, Z) => if xs.length ≠ Z.nrows then (s, .error .dimensionality) else (s, .ok ())
    | _, _ => (s, .ok ())

/-- `L2DecoupledSolver.solve()`, inherited from `L2Solver` with an array of regularizers:
_tikhonov.py:313-326. `svals / (svals**2 + regs**2)` has shape `(p, len(regs))`; its transpose
multiplies the `(r, p)` array `_ZPhi` with numpy's broadcasting of single rows. -/
def L2.solveDec [Field K] [DecidableEq K] (s : L2 (List K) K) : Except Err (Mat K) :=
  match s.data with
  | none => .error .attribute
  | some _ => match s.reg with
    | none => .error .attribute
    | some regs => match s.pre with
      | none => .error .attribute
      | some p =>
        if regs.any (fun lam => p.svals.any (fun x => decide (x ^ 2 + lam ^ 2 = 0))) then
          .error .nonfinite
        else if regs.length = p.ZPhi.nrows then
          .ok ⟨p.ZPhi.nrows, p.PsiT.ncols, zipWith (l2Row p) regs p.ZPhi.rows⟩
        else match regs, p.ZPhi.rows with
          | [lam], rows => .ok ⟨p.ZPhi.nrows, p.PsiT.ncols, rows.map (l2Row p lam)⟩
          | _, [z] => .ok ⟨regs.length, p.PsiT.ncols, regs.map fun lam => l2Row p lam z⟩
          | _, _ => .error .value

/-- `L2DecoupledSolver.regresidual`: _tikhonov.py:624-647; `regs**2 * sums` has numpy's broadcasting,
which is modelled for equal lengths only (others raise here). -/
def L2.regresidualDec [Field K] (s : L2 (List K) K) (O : NdArg K) : Except Err (List K) :=
  match s.data with
  | none => .error .attribute
  | some (D, Z) => match s.reg with
    | none => .error .attribute
    | some regs => do
      let res ← residual s.data O
      let A ← checkOhat Z.nrows D.ncols O
      if regs.length ≠ Z.nrows then throw .value
      return zipWith (· + ·) res (zipWith (fun lam o => lam ^ 2 * sumSq o) regs A.rows)

/-- `L2DecoupledSolver.posterior()`: _tikhonov.py:595-603. -/
def L2.posteriorDec [Field K] [LinearOrder K] (eps : K) (s : L2 (List K) K) :
    Except Err (Mat K × List (Mat K)) := do
  let O ← s.solveDec
  match s.data, s.reg with
  | some (D, _), some regs => do
    let res ← s.regresidualDec (.mat O)
    let sig ← checkSigmas eps D.nrows res
    let DTD := symmetrize (D.t.mul D)
    return (O, zipWith (fun lam x => (⟨D.ncols, D.ncols,
      zipWith vadd DTD.rows ((Mat.eye K D.ncols).smul (lam ^ 2)).rows⟩ : Mat K).smul x⁻¹) regs sig)
  | _, _ => .error .attribute

/-- `reset()`: _base.py:290-292 and _tikhonov.py:116-119. The precomputed attributes remain. -/
def L2.reset {R : Type} (s : L2 R K) : L2 R K := { s with reg := none, data := none }

/-- `copy()`: _tikhonov.py:457-471. -/
def L2.copy {R : Type} (s : L2 R K) : Except Err (L2 R K) :=
  match s.data with
  | none => .ok ⟨s.reg, none, none⟩
  | some x => match s.pre with
    | none => .error .attribute
    | some p => .ok ⟨s.reg, some x, some p⟩

/-! ### TikhonovSolver and TikhonovDecoupledSolver -/

/-- `method`: _tikhonov.py:897-909. -/
inductive TikMethod
  | lstsq | normal
  deriving DecidableEq, Repr

/-- The attributes `_ZtPad`, `_DtD`, `_DtZt`: _tikhonov.py:928-933. -/
structure TikPre (K : Type) where
  ZtPad : Mat K
  DtD : Mat K
  DtZt : Mat K
  deriving DecidableEq

/-- State of a `TikhonovSolver` (`R = Mat K`) or a `TikhonovDecoupledSolver` (`R = List (Mat K)`). -/
structure Tik (R K : Type) where
  reg : Option R
  method : TikMethod
  data : Option (Mat K × Mat K)
  pre : Option (TikPre K)
  deriving DecidableEq

/-- A regularization matrix argument: diagonal entries or a full matrix (dense or sparse). -/
inductive RegArg (K : Type)
  | diag (v : List K)
  | full (G : Mat K)

/-- Normalisation of one regularizer: _tikhonov.py:764-774. -/
def RegArg.toMat [Zero K] [LT K] [DecidableLT K] : RegArg K → Except Err (Mat K)
  | .diag v => if v.any (fun x => decide (x < 0)) then .error .value else .ok (Mat.diag v)
  | .full G => .ok G

/-- `TikhonovSolver._check_regularizer_shape`: _tikhonov.py:745-749. -/
def tikShape (d : Nat) (G : Mat K) : Except Err Unit :=
  if G.nrows = d ∧ G.ncols = d then .ok () else .error .dimensionality

/-- `TikhonovDecoupledSolver._check_regularizer_shape`: _tikhonov.py:1149-1158. -/
def tikDecShape (r d : Nat) (Gs : List (Mat K)) : Except Err Unit :=
  if Gs.length ≠ r then .error .value
  else if Gs.all (fun G => decide (G.nrows = d ∧ G.ncols = d)) then .ok () else .error .value

/-- `TikhonovSolver.regularizer` setter: _tikhonov.py:760-779; assigned before the shape check. -/
def Tik.setReg [Zero K] [LT K] [DecidableLT K] (s : Tik (Mat K) K) (G : Option (RegArg K)) :
    Tik (Mat K) K × Except Err Unit :=
  match G with
  | none => ({ s with reg := none }, .ok ())
  | some G => match G.toMat with
    | .error e => (s, .error e)
    | .ok G =>
      let s' := { s with reg := some G }
      match s.data with
      | none => (s', .ok ())
      | some (D, _) => (s', tikShape D.ncols G)

/-- `TikhonovDecoupledSolver.regularizer` setter: _tikhonov.py:1169-1190. -/
def Tik.setRegs [Zero K] [LT K] [DecidableLT K] (s : Tik (List (Mat K)) K)
    (Gs : Option (List (RegArg K))) : Tik (List (Mat K)) K × Except Err Unit :=
  match Gs with
  | none => ({ s with reg := none }, .ok ())
  | some Gs => match Gs.mapM RegArg.toMat with
    | .error e => (s, .error e)
    | .ok Gs =>
      let s' := { s with reg := some Gs }
      match s.data with
      | none => (s', .ok ())
      | some (D, Z) => (s', tikDecShape Z.nrows D.ncols Gs)

/-- The quantities precomputed by `fit`: _tikhonov.py:926-933. -/
def tikPre [Semiring K] (D Z : Mat K) : TikPre K where
  ZtPad := ⟨Z.ncols + D.ncols, Z.nrows, Z.t.rows ++ replicate D.ncols (replicate Z.nrows 0)⟩
  DtD := D.t.mul D
  DtZt := D.t.mul Z.t

/-- `TikhonovSolver.fit`: _tikhonov.py:912-935, with the shape check of the class. The data are stored
before the check, the precomputed quantities after it. -/
def Tik.fit {R : Type} [Semiring K] (shape : Nat → Nat → R → Except Err Unit) (s : Tik R K)
    (D Z : NdArg K) : Tik R K × Except Err Unit :=
  match templateFit D Z with
  | .error e => (s, .error e)
  | .ok (D, Z) =>
    let s := { s with data := some (D, Z) }
    match (match s.reg with
      | none => Except.ok ()
      | some G => shape Z.nrows D.ncols G) with
    | .error e => (s, .error e)
    | .ok () => ({ s with pre := some (tikPre D Z) }, .ok ())

/-- `TikhonovSolver.fit`. -/
def Tik.fit1 [Semiring K] (s : Tik (Mat K) K) : NdArg K → NdArg K → Tik (Mat K) K × Except Err Unit :=
  s.fit fun _ d G => tikShape d G

/-- `TikhonovDecoupledSolver.fit` (inherited, with its own shape check). -/
def Tik.fitDec [Semiring K] (s : Tik (List (Mat K)) K) :
    NdArg K → NdArg K → Tik (List (Mat K)) K × Except Err Unit :=
  s.fit tikDecShape

/-- The two branches of `solve` for one regularizer and right-hand sides `ZtPad`, `DtZt` (already
reduced to the wanted columns): _tikhonov.py:947-952, 1208-1214. `lstsq` and `posSolve` are
`scipy.linalg.lstsq` and `scipy.linalg.solve(assume_a="pos")`; both raise `ValueError` for
incompatible shapes. Returns the solution with one column per right-hand side. -/
def tikSolve [Semiring K] (lstsq posSolve : Mat K → Mat K → Except Err (Mat K)) (method : TikMethod)
    (D G ZtPad DtD DtZt : Mat K) : Except Err (Mat K) :=
  match method with
  | .lstsq => do
    let P ← D.vstack G
    if P.nrows ≠ ZtPad.nrows then throw .value
    lstsq P ZtPad
  | .normal => do
    let A ← DtD.addB (G.t.mul G)
    if A.nrows ≠ DtZt.nrows then throw .value
    posSolve A DtZt

/-- `TikhonovSolver.solve()`: _tikhonov.py:937-954. -/
def Tik.solve [Semiring K] (lstsq posSolve : Mat K → Mat K → Except Err (Mat K))
    (s : Tik (Mat K) K) : Except Err (Mat K) :=
  match s.data with
  | none => .error .attribute
  | some (D, _) => match s.reg with
    | none => .error .attribute
    | some G => match s.pre with
      | none => .error .attribute
      | some p => do return (← tikSolve lstsq posSolve s.method D G p.ZtPad p.DtD p.DtZt).t

/-- `TikhonovDecoupledSolver.solve()`: _tikhonov.py:1193-1216. Row `i` of the uninitialised `(r, d)`
array is assigned for every regularizer; more regularizers than rows raise `IndexError`, fewer leave
uninitialised rows (`junk`). -/
def Tik.solveDec [Semiring K] (junk : K) (lstsq posSolve : Mat K → Mat K → Except Err (Mat K))
    (s : Tik (List (Mat K)) K) : Except Err (Mat K) :=
  match s.data with
  | none => .error .attribute
  | some (D, Z) => match s.reg with
    | none => .error .attribute
    | some Gs => match s.pre with
      | none => .error .attribute
      | some p => do
        let rows ← Gs.zipIdx.mapM fun (G, i) => do
          if Z.nrows ≤ i ∨ p.ZtPad.ncols ≤ i then throw .index
          let x ← tikSolve lstsq posSolve s.method D G (p.ZtPad.colMat i) p.DtD (p.DtZt.colMat i)
          if x.nrows ≠ D.ncols then throw .value
          return x.rows.map fun row => row.getD 0 0
        return ⟨Z.nrows, D.ncols, rows ++ replicate (Z.nrows - rows.length) (replicate D.ncols junk)⟩

/-- `TikhonovSolver.regresidual`: _tikhonov.py:1019-1046. -/
def Tik.regresidual [CommRing K] (s : Tik (Mat K) K) (O : NdArg K) : Except Err (List K) :=
  match s.data with
  | none => .error .attribute
  | some (D, Z) => match s.reg with
    | none => .error .attribute
    | some G => do
      let res ← residual s.data O
      let A ← checkOhat Z.nrows D.ncols O
      if G.ncols ≠ D.ncols then throw .value
      return zipWith (· + ·) res (A.rows.map fun o => sumSq (matVec G.rows o))

/-- `TikhonovDecoupledSolver.regresidual`: _tikhonov.py:1287-1319. For a one-dimensional `Ohat` the loop
runs over its scalar entries and `G @ oi` raises `ValueError`. -/
def Tik.regresidualDec [CommRing K] (s : Tik (List (Mat K)) K) (O : NdArg K) : Except Err (List K) :=
  match s.data with
  | none => .error .attribute
  | some (D, Z) => match s.reg with
    | none => .error .attribute
    | some Gs => do
      let res ← residual s.data O
      match O with
      | .mat A => do
        if !(Gs.take A.nrows).all (fun G => decide (G.ncols = D.ncols)) then throw .value
        if min Gs.length A.nrows ≠ Z.nrows then throw .value
        return zipWith (· + ·) res (zipWith (fun G o => sumSq (matVec G.rows o)) Gs A.rows)
      | _ => .error .value

/-- `TikhonovSolver.posterior()`: _tikhonov.py:997-1002. -/
def Tik.posterior [Field K] [LinearOrder K] (eps : K)
    (lstsq posSolve : Mat K → Mat K → Except Err (Mat K)) (s : Tik (Mat K) K) :
    Except Err (Mat K × List (Mat K)) := do
  let O ← s.solve lstsq posSolve
  match s.data, s.reg with
  | some (D, _), some G => do
    let res ← s.regresidual (.mat O)
    let sig ← checkSigmas eps D.nrows res
    let inv ← (symmetrize (D.t.mul D)).addB (symmetrize (G.t.mul G))
    return (O, sig.map fun x => inv.smul x⁻¹)
  | _, _ => .error .attribute

/-- `TikhonovDecoupledSolver.posterior()`: _tikhonov.py:1257-1264. -/
def Tik.posteriorDec [Field K] [LinearOrder K] (eps junk : K)
    (lstsq posSolve : Mat K → Mat K → Except Err (Mat K)) (s : Tik (List (Mat K)) K) :
    Except Err (Mat K × List (Mat K)) := do
  let O ← s.solveDec junk lstsq posSolve
  match s.data, s.reg with
  | some (D, _), some Gs => do
    let res ← s.regresidualDec (.mat O)
    let sig ← checkSigmas eps D.nrows res
    let Ps ← (zip Gs sig).mapM fun (G, x) => do
      let inv ← (symmetrize (D.t.mul D)).addB (symmetrize (G.t.mul G))
      return inv.smul x⁻¹
    return (O, Ps)
  | _, _ => .error .attribute

/-- `reset()`: _base.py:290-292 and _tikhonov.py:116-119. -/
def Tik.reset {R : Type} (s : Tik R K) : Tik R K := { s with reg := none, data := none }

/-! ### get_operator_regularizer -/

/-- `TikhonovSolver.get_operator_regularizer`: _tikhonov.py:781-895 for nonparametric operators and
scalar parameters (`hasInputs` of each operator given with its class). -/
def operatorRegularizer [Zero K] (ops : List (OpKind × Bool)) (params : List K) (r m : Nat) :
    Except Err (List K) :=
  if ops.length ≠ params.length then .error .value
  else if ops.any Prod.snd && m == 0 then .error .value
  else
    let dims := ops.map fun o => o.1.dim r m
    let fill := (zip dims params).foldl (fun (st : List K × Nat) (dp : Nat × K) =>
      (zipWith (fun j x => if st.2 ≤ j ∧ j < st.2 + dp.1 then dp.2 else x) (range st.1.length) st.1,
        st.2 + dp.1)) (replicate dims.sum 0, 0)
    .ok fill.1

/-! ### TruncatedSVDSolver -/

/-- State of a `TruncatedSVDSolver`: `num_svdmodes`, data, `(_svals, _ZPhi, _SinvPsiT)`. -/
structure Tsvd (K : Type) where
  nmodes : Option Int
  data : Option (Mat K × Mat K)
  pre : Option (L2Pre K)
  deriving DecidableEq

/-- `num_svdmodes` setter: _tsvd.py:75-91 for `None` and integers; `max_modes`: :100-103. -/
def Tsvd.setModes (s : Tsvd K) (n : Option Int) : Tsvd K × Except Err Unit :=
  match n with
  | none => match s.data with
    | none => ({ s with nmodes := none }, .ok ())
    | some _ => match s.pre with
      | none => (s, .error .attribute)
      | some p => ({ s with nmodes := some p.ZPhi.ncols }, .ok ())
  | some n => match s.data with
    | none => ({ s with nmodes := some n }, .ok ())
    | some _ => match s.pre with
      | none => (s, .error .attribute)
      | some p =>
        let d : Int := p.ZPhi.ncols
        let n := if n ≤ 0 then d + n else n
        if n > d then (s, .error .value) else ({ s with nmodes := some n }, .ok ())

/-- `fit`: _tsvd.py:123-147. `PsiT / svals` has NaN/Inf rows for zero singular values; the rows kept
by `solve` are checked there. -/
def Tsvd.fit [Field K] (svd : Mat K → Except Err (Svd K)) (s : Tsvd K) (D Z : NdArg K) :
    Tsvd K × Except Err Unit :=
  match templateFit D Z with
  | .error e => (s, .error e)
  | .ok (D, Z) =>
    let s := { s with data := some (D, Z) }
    match svd D with
    | .error e => (s, .error e)
    | .ok u =>
      let d : Int := (Z.mul u.Phi).ncols
      let n := s.nmodes.getD d
      let n := if n ≤ 0 then d + n else n
      let n := if n > d then d else n
      ({ s with nmodes := some n, pre := some ⟨u.s, Z.mul u.Phi,
        ⟨u.PsiT.nrows, u.PsiT.ncols, zipWith (fun x row => row.map (· / x)) u.s u.PsiT.rows⟩⟩ }, .ok ())

/-- The number of leading entries selected by `[:n]` from `d`: Python slicing, where a negative `n`
counts from the end. -/
def sliceTo (d : Nat) (n : Int) : Nat := if n < 0 then (d + n).toNat else min n.toNat d

/-- `solve()`: _tsvd.py:149-160. -/
def Tsvd.solve [Field K] [DecidableEq K] (s : Tsvd K) : Except Err (Mat K) :=
  match s.data with
  | none => .error .attribute
  | some _ => match s.pre with
    | none => .error .attribute
    | some p => match s.nmodes with
      | none => .error .attribute
      | some n =>
        let c := sliceTo p.ZPhi.ncols n
        if (p.svals.take c).any (fun x => decide (x = 0)) then .error .nonfinite
        else .ok ⟨p.ZPhi.nrows, p.PsiT.ncols,
          p.ZPhi.rows.map fun z => vecMat p.PsiT.ncols (z.take c) (p.PsiT.rows.take c)⟩

/-! ### TotalLeastSquaresSolver -/

/-- State of a `TotalLeastSquaresSolver`: data and `_Ohat` (with the squared `_norm_of_errors`). -/
structure Tls (K : Type) where
  data : Option (Mat K × Mat K)
  sol : Option (Mat K × K)
  deriving DecidableEq

/-- `A[i:, j:]` and friends: rows from `i`, columns `[a, b)`. -/
def Mat.block (A : Mat K) (i a b : Nat) : Mat K :=
  ⟨A.nrows - i, b - a, (A.rows.drop i).map fun row => (row.drop a).take (b - a)⟩

/-- `fit`: _total.py:78-112. `solve` is `scipy.linalg.solve`. -/
def Tls.fit [Field K] (svd : Mat K → Except Err (Svd K)) (solve : Mat K → Mat K → Except Err (Mat K))
    (s : Tls K) (D Z : NdArg K) : Tls K × Except Err Unit :=
  match templateFit D Z with
  | .error e => (s, .error e)
  | .ok (D, Z) =>
    let s := { s with data := some (D, Z) }
    let d := D.ncols
    let r := Z.nrows
    if D.nrows < d + r then (s, .error .value)
    else match svd ⟨D.nrows, d + r, zipWith (· ++ ·) D.rows Z.t.rows⟩ with
      | .error e => (s, .error e)
      | .ok u =>
        let ZZ := u.PsiT.block d d (d + r)
        let DZ := u.PsiT.block d 0 d
        match solve ZZ DZ with
        | .error e => (s, .error e)
        | .ok X =>
          let PhiSig := u.Phi.rows.map fun row => zipWith (· * ·) (row.drop d) (u.s.drop d)
          let deltas := (matMul (r + d) PhiSig (zipWith (· ++ ·) ZZ.rows DZ.rows)).map (vsmul (-1))
          ({ s with sol := some (X.smul (-1), (deltas.map sumSq).sum) }, .ok ())

/-- `solve()`: _total.py:114-124. -/
def Tls.solve (s : Tls K) : Except Err (Mat K) :=
  match s.data, s.sol with
  | some _, some (O, _) => .ok O
  | _, _ => .error .attribute

/-! ### lstsq_size -/

/-- `lstsq_size(modelform, r, m, affines)`: _base.py:26-81. The model form is a list of characters;
`affines c` is the number of affine terms given for the operator `c`, if any. -/
def lstsqSize (modelform : List Char) (r m : Nat) (affines : Char → Option Nat) : Except Err Nat :=
  if 'B' ∈ modelform ∧ m = 0 then .error .value
  else if 'B' ∉ modelform ∧ m ≠ 0 then .error .value
  else
    let qs := ['c', 'A', 'H', 'G', 'B'].map fun op =>
      if op ∈ modelform then (affines op).getD 1 else 0
    let rs := [1, r, r * (r + 1) / 2, r * (r + 1) * (r + 2) / 6, m]
    .ok (zipWith (· * ·) qs rs).sum

end Opinf
