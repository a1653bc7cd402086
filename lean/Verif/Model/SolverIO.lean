import Verif.Model.Hdf5
import Verif.Model.Lstsq

/-!
# Files of least-squares solvers

`save()`, `load()` and `copy()` of the solvers: /repo/src/opinf/lstsq/_base.py:270-288, 426-481, _tikhonov.py:121-199,
428-471, 1048-1093, _tsvd.py:171-230, _total.py:144-199. The attributes of the data set `options` have the prefix
`options.`; a number as an attribute is an array with one entry. The option `full_matrices` is always `False`. The data
set `meta` and its attribute `method` are the entry `method`. Copies share their arrays with the original, which is not
modelled (arrays are values).
-/

namespace Opinf

open List

variable {K : Type}

/-- The options of a solver: `cond` and `lapack_driver`. -/
structure Opts (K : Type) where
  cond : Option K
  driver : Option String
  deriving DecidableEq

/-- A solver with its options. -/
structure SolverFile (S K : Type) where
  solver : S
  opts : Opts K
  deriving DecidableEq

/-! ### Dictionaries -/

/-- `options.attrs[key] = "NULL" if value is None else value` for strings: _base.py:270-275. -/
def putStr (s : Option String) : H5Val K := .str (s.getD "NULL")

/-- The same for numbers. -/
def putNum : Option K → H5Val K
  | none => .str "NULL"
  | some c => .arr [c]

/-- `None if value == "NULL" else value` for strings: _base.py:277-286. -/
def takeStr (h : H5 K) (key : String) : Except Err (Option String) :=
  match h.get? key with
  | some (.str s) => .ok (if s = "NULL" then none else some s)
  | _ => .error .key

/-- The same for numbers. -/
def takeNum (h : H5 K) (key : String) : Except Err (Option K) :=
  match h.get? key with
  | some (.str s) => if s = "NULL" then .ok none else .error .type
  | some (.arr [c]) => .ok (some c)
  | _ => .error .key

/-- The data sets `data_matrix` and `lhs_matrix`, if there are data. -/
def putData : Option (Mat K × Mat K) → List (String × H5Val K)
  | none => []
  | some (D, Z) => [("data_matrix", .mat D), ("lhs_matrix", .mat Z)]

/-- Reading the data and checking them with `SolverTemplate.fit`. -/
def takeData (h : H5 K) : Except Err (Option (Mat K × Mat K)) :=
  match h.get? "data_matrix" with
  | none => .ok none
  | some _ => do
    let D ← h.mat "data_matrix"
    let Z ← h.mat "lhs_matrix"
    let x ← templateFit (.mat D) (.mat Z)
    return some x

/-- The result of a `save` that writes the entries and, if there are data, further attributes, which are missing if an
earlier `fit` failed: `AttributeError`. -/
def finishSave (vals : List (String × H5Val K)) (trained : Bool) (extras : Option (List (String × H5Val K))) : Saved K :=
  if trained then
    match extras with
    | none => (.node vals [], .error .attribute)
    | some l => (.node (vals ++ l) [], .ok ())
  else (.node vals [], .ok ())

/-! ### PlainSolver -/

/-- `PlainSolver.save`: _base.py:426-444. -/
def Plain.save (x : SolverFile (Plain K) K) : Saved K :=
  (.node ([("options.cond", putNum x.opts.cond), ("options.lapack_driver", putStr x.opts.driver)] ++
    putData x.solver.data) [], .ok ())

/-- `PlainSolver.load`: _base.py:446-471. -/
def Plain.load (h : H5 K) : Except Err (SolverFile (Plain K) K) := do
  let c ← takeNum h "options.cond"
  let d ← takeStr h "options.lapack_driver"
  let data ← takeData h
  return ⟨⟨data⟩, c, d⟩

/-! ### L2Solver and L2DecoupledSolver -/

/-- `_svals`, `_ZPhi`, `_PsiT`. -/
def L2Pre.put (last : String) (p : L2Pre K) : List (String × H5Val K) :=
  [("_svals", .arr p.svals), ("_ZPhi", .mat p.ZPhi), (last, .mat p.PsiT)]

/-- Reading them. -/
def L2Pre.take (last : String) (h : H5 K) : Except Err (L2Pre K) := do
  let a ← h.arr "_svals"
  let b ← h.mat "_ZPhi"
  let c ← h.mat last
  return ⟨a, b, c⟩

/-- Read the precomputed attributes if there are data. -/
def takePre {P : Type} (data : Option (Mat K × Mat K)) (read : Except Err P) : Except Err (Option P) :=
  match data with
  | none => .ok none
  | some _ => read.map some

/-- The regularizer: `[reg]` for an `L2Solver`: _tikhonov.py:137-140. -/
def putReg : Option (List K) → List (String × H5Val K)
  | none => []
  | some v => [("regularizer", .arr v)]

/-- `hf["regularizer"][:]`, if present: _tikhonov.py:173-175. -/
def takeReg (h : H5 K) : Except Err (Option (List K)) :=
  match h.get? "regularizer" with
  | none => .ok none
  | some _ => (h.arr "regularizer").map some

/-- `L2Solver._save` and `L2DecoupledSolver._save`; the regularizer is given as an array. -/
def L2.saveAs {R : Type} (asList : R → List K) (x : SolverFile (L2 R K) K) : Saved K :=
  finishSave (putReg (x.solver.reg.map asList) ++ [("options.lapack_driver", putStr x.opts.driver)] ++ putData x.solver.data)
    x.solver.data.isSome (x.solver.pre.map (L2Pre.put "_PsiT"))

/-- `L2Solver.save`: _tikhonov.py:428-441. -/
def L2.save (x : SolverFile (L2 K K) K) : Saved K := L2.saveAs (fun a => [a]) x

/-- `L2DecoupledSolver.save` (inherited). -/
def L2.saveDec (x : SolverFile (L2 (List K) K) K) : Saved K := L2.saveAs (fun v => v) x

/-- `reg[0]` for an `L2Solver`: _tikhonov.py:176-177. -/
def firstReg : Option (List K) → Except Err (Option K)
  | none => .ok none
  | some (a :: _) => .ok (some a)
  | some [] => .error .index

/-- The regularizer given to the constructor of an `L2Solver` is checked by the setter. -/
def L2.construct [Zero K] [LT K] [DecidableLT K] (reg : Option K) : Except Err (L2 K K) :=
  match (L2.mk (K := K) none none none).setReg reg with
  | (_, .error e) => .error e
  | (s, .ok _) => .ok s

/-- The same for an `L2DecoupledSolver`. -/
def L2.constructDec [Zero K] [LT K] [DecidableLT K] (regs : Option (List K)) : Except Err (L2 (List K) K) :=
  match (L2.mk (R := List K) (K := K) none none none).setRegs (regs.map NdArg.vec) with
  | (_, .error e) => .error e
  | (s, .ok _) => .ok s

/-- `L2Solver.load`: _tikhonov.py:155-199, 443-457. -/
def L2.load [Zero K] [LT K] [DecidableLT K] (h : H5 K) : Except Err (SolverFile (L2 K K) K) := do
  let regs ← takeReg h
  let reg ← firstReg regs
  let d ← takeStr h "options.lapack_driver"
  let s ← L2.construct reg
  let data ← takeData h
  let pre ← takePre data (L2Pre.take "_PsiT" h)
  return ⟨{ s with data := data, pre := pre }, none, d⟩

/-- `L2DecoupledSolver.load` (inherited). -/
def L2.loadDec [Zero K] [LT K] [DecidableLT K] (h : H5 K) : Except Err (SolverFile (L2 (List K) K) K) := do
  let regs ← takeReg h
  let d ← takeStr h "options.lapack_driver"
  let s ← L2.constructDec regs
  let data ← takeData h
  let pre ← takePre data (L2Pre.take "_PsiT" h)
  return ⟨{ s with data := data, pre := pre }, none, d⟩

/-! ### TikhonovSolver and TikhonovDecoupledSolver -/

/-- The name of a method. -/
def TikMethod.name : TikMethod → String
  | .lstsq => "lstsq"
  | .normal => "normal"

/-- The setter of `method`: _tikhonov.py:901-909. -/
def TikMethod.ofName (s : String) : Except Err TikMethod :=
  if s = "lstsq" then .ok .lstsq else if s = "normal" then .ok .normal else .error .value

/-- `_ZtPad`, `_DtD`, `_DtZt`. -/
def TikPre.put (p : TikPre K) : List (String × H5Val K) :=
  [("_ZtPad", .mat p.ZtPad), ("_DtD", .mat p.DtD), ("_DtZt", .mat p.DtZt)]

/-- Reading them. -/
def TikPre.take (h : H5 K) : Except Err (TikPre K) := do
  let a ← h.mat "_ZtPad"
  let b ← h.mat "_DtD"
  let c ← h.mat "_DtZt"
  return ⟨a, b, c⟩

/-- `TikhonovSolver._save` with the regularizer already written: _tikhonov.py:142-152. -/
def Tik.saveWith {R : Type} (reg : List (String × H5Val K)) (x : SolverFile (Tik R K) K) : Saved K :=
  finishSave (reg ++ [("method", .str x.solver.method.name), ("options.cond", putNum x.opts.cond),
    ("options.lapack_driver", putStr x.opts.driver)] ++ putData x.solver.data)
    x.solver.data.isSome (x.solver.pre.map TikPre.put)

/-- `TikhonovSolver.save`: _tikhonov.py:1048-1061. -/
def Tik.save (x : SolverFile (Tik (Mat K) K) K) : Saved K :=
  Tik.saveWith (match x.solver.reg with
    | none => []
    | some G => [("regularizer", .mat G)]) x

/-- The matrices have the same shape, so that they form one array. -/
def uniformShapes : List (Mat K) → Bool
  | [] => true
  | G :: Gs => Gs.all fun H => H.nrows == G.nrows && H.ncols == G.ncols

/-- `TikhonovDecoupledSolver.save` (inherited): the list of matrices becomes one array; matrices of different shapes
raise `ValueError` before anything is written. -/
def Tik.saveDec (x : SolverFile (Tik (List (Mat K)) K) K) : Saved K :=
  match x.solver.reg with
  | none => Tik.saveWith [] x
  | some Gs => if uniformShapes Gs then Tik.saveWith [("regularizer", .cube Gs)] x else (.node [] [], .error .value)

/-- The regularizer of a `TikhonovSolver`, checked by the setter. -/
def takeMatReg (h : H5 K) : Except Err (Option (Mat K)) :=
  match h.get? "regularizer" with
  | none => .ok none
  | some _ => (h.mat "regularizer").map some

/-- The regularizer of a `TikhonovDecoupledSolver`. -/
def takeCube (h : H5 K) : Except Err (Option (List (Mat K))) :=
  match h.get? "regularizer" with
  | none => .ok none
  | some (.cube Gs) => .ok (some Gs)
  | some _ => .error .key

/-- The part of `load` common to both classes: _tikhonov.py:178-199. -/
def Tik.loadWith {R : Type} (reg : Option R) (h : H5 K) : Except Err (SolverFile (Tik R K) K) := do
  let c ← takeNum h "options.cond"
  let d ← takeStr h "options.lapack_driver"
  let name ← h.str "method"
  let m ← TikMethod.ofName name
  let data ← takeData h
  let pre ← takePre data (TikPre.take h)
  return ⟨⟨reg, m, data, pre⟩, c, d⟩

/-- `TikhonovSolver.load`: _tikhonov.py:155-199, 1063-1078. Loaded regularizers are matrices, so that the setter only
stores them. -/
def Tik.load (h : H5 K) : Except Err (SolverFile (Tik (Mat K) K) K) := do
  let reg ← takeMatReg h
  Tik.loadWith reg h

/-- `TikhonovDecoupledSolver.load` (inherited). -/
def Tik.loadDec (h : H5 K) : Except Err (SolverFile (Tik (List (Mat K)) K) K) := do
  let reg ← takeCube h
  Tik.loadWith reg h

/-- `copy()`: _tikhonov.py:1080-1093. -/
def Tik.copy {R : Type} (s : Tik R K) : Except Err (Tik R K) :=
  match s.data with
  | none => .ok ⟨s.reg, s.method, none, none⟩
  | some x => match s.pre with
    | none => .error .attribute
    | some p => .ok ⟨s.reg, s.method, some x, some p⟩

/-! ### TruncatedSVDSolver -/

/-- `TruncatedSVDSolver.save`: _tsvd.py:171-191. `[None]` cannot be written: `TypeError`. -/
def Tsvd.save (x : SolverFile (Tsvd K) K) : Saved K :=
  match x.solver.nmodes with
  | none => (.node [("options.lapack_driver", putStr x.opts.driver)] [], .error .type)
  | some n => finishSave ([("options.lapack_driver", putStr x.opts.driver), ("num_svdmodes", .int n)] ++
      putData x.solver.data) x.solver.data.isSome (x.solver.pre.map (L2Pre.put "_SinvPsiT"))

/-- `int(hf["num_svdmodes"][0])`. -/
def takeModes (h : H5 K) (key : String) : Except Err Int :=
  match h.get? key with
  | some (.int n) => .ok n
  | _ => .error .key

/-- `TruncatedSVDSolver.load`: _tsvd.py:193-218. -/
def Tsvd.load (h : H5 K) : Except Err (SolverFile (Tsvd K) K) := do
  let d ← takeStr h "options.lapack_driver"
  let n ← takeModes h "num_svdmodes"
  let data ← takeData h
  let pre ← takePre data (L2Pre.take "_SinvPsiT" h)
  return ⟨⟨some n, data, pre⟩, none, d⟩

/-- `copy()`: _tsvd.py:220-230. -/
def Tsvd.copy (s : Tsvd K) : Except Err (Tsvd K) :=
  match s.data with
  | none => .ok ⟨s.nmodes, none, none⟩
  | some x => match s.pre with
    | none => .error .attribute
    | some p => .ok ⟨s.nmodes, some x, some p⟩

/-! ### TotalLeastSquaresSolver -/

/-- The computed operators and the norm of the errors. -/
def putSol (p : Mat K × K) : List (String × H5Val K) := [("_Ohat", .mat p.1), ("_norm_of_errors", .arr [p.2])]

/-- Reading them. -/
def takeSol (h : H5 K) : Except Err (Mat K × K) := do
  let O ← h.mat "_Ohat"
  match h.get? "_norm_of_errors" with
  | some (.arr (e :: _)) => .ok (O, e)
  | _ => .error .key

/-- `TotalLeastSquaresSolver.save`: _total.py:144-163 (the condition number is not modelled). -/
def Tls.save (x : SolverFile (Tls K) K) : Saved K :=
  finishSave ([("options.lapack_driver", putStr x.opts.driver)] ++ putData x.solver.data)
    x.solver.data.isSome (x.solver.sol.map putSol)

/-- `TotalLeastSquaresSolver.load`: _total.py:165-190. -/
def Tls.load (h : H5 K) : Except Err (SolverFile (Tls K) K) := do
  let d ← takeStr h "options.lapack_driver"
  let data ← takeData h
  let sol ← takePre data (takeSol h)
  return ⟨⟨data, sol⟩, none, d⟩

/-- `copy()`: _total.py:192-199. -/
def Tls.copy (s : Tls K) : Except Err (Tls K) :=
  match s.data with
  | none => .ok ⟨none, none⟩
  | some x => match s.sol with
    | none => .error .attribute
    | some p => .ok ⟨some x, some p⟩

end Opinf
