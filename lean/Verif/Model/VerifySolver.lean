import Verif.Model.VerifyOp
import Verif.Model.SolverIO

/-!
# `verify()` of least-squares solvers

/repo/src/opinf/lstsq/_base.py:299-353 (`SolverTemplate.verify`).

Simplifications: the printed messages are left out. A solution with NaN or infinite entries (`nonfinite`) is not close to
itself, so that the comparison with the copy fails; here it fails at once. A solution of the copy or of the loaded solver
that has another shape than that of the solver ends the call with ValueError (numpy would broadcast some of them).
-/

namespace Opinf

open List

variable {K S : Type}

/-- The methods of a solver class. `dims` are `r`, `d` and `k`, or `none` if `data_matrix` is `None`. A method that
raises NotImplementedError gives `notImplemented`. `save` is called with `overwrite=True`. -/
structure LsqI (K S : Type) where
  dims : S → Option (Nat × Nat × Nat)
  solve : S → Except Err (NdArg K)
  copy : S → Except Err S
  sameClass : S → S → Bool
  save : S → FS K → String → FS K × Except Err Unit
  load : S → FS K → String → Except Err S

/-- NaN entries: see the simplifications above. -/
def nanFails {α : Type} : Except Err α → Except Err α
  | .error .nonfinite => .error .verification
  | x => x

/-- `Ohat.shape == (r, d)`, otherwise VerificationError: _base.py:333-337. -/
def asShape (r d : Nat) : NdArg K → Except Err (Mat K)
  | .mat A => if A.nrows = r ∧ A.ncols = d then .ok A else .error .verification
  | _ => .error .verification

/-- `np.allclose(A, Ohat)`: _base.py:323-326. -/
def compareOhat [Field K] [LinearOrder K] (O : Mat K) : NdArg K → Except Err Unit
  | .mat A => if A.nrows = O.nrows ∧ A.ncols = O.ncols then insist (closeRows A.rows O.rows) else .error .value
  | _ => .error .value

/-- `_check_equality(obj1, obj2, Ohat1, operation)`: _base.py:318-326. -/
def LsqI.checkEqual [Field K] [LinearOrder K] (I : LsqI K S) (x y : S) (O : Mat K) : Except Err Unit := do
  insist (I.dims x == I.dims y)
  compareOhat O (← nanFails (I.solve y))

/-- `_make_copy` and the check of the copy: _base.py:309-316, 340-341. -/
def LsqI.checkCopy [Field K] [LinearOrder K] (I : LsqI K S) (x : S) (O : Mat K) : Except Err S := do
  let y ← I.copy x
  insist (I.sameClass y x)
  I.checkEqual x y O
  return y

/-- The checks before those of the file; returns the copy and the solution: _base.py:330-342. -/
def LsqI.checkSolve [Field K] [LinearOrder K] (I : LsqI K S) (x : S) (r d : Nat) : Except Err (S × Mat K) := do
  let a ← nanFails (I.solve x)
  let O ← asShape r d a
  let y ← I.checkCopy x O
  return (y, O)

/-- `except NotImplementedError`: _base.py:349-350. -/
def unlessMissing : Except Err Unit → Except Err Unit
  | .error .notImplemented => .ok ()
  | x => x

/-- `self3 = self2.load(tempfile)` and the comparison: _base.py:347-348. -/
def LsqI.checkLoaded [Field K] [LinearOrder K] (I : LsqI K S) (y : S) (O : Mat K) (fs : FS K) (path : String) :
    Except Err Unit := do
  let z ← I.load y fs path
  I.checkEqual y z O

/-- The checks of `save()` and `load()`: _base.py:344-350. -/
def LsqI.checkFile [Field K] [LinearOrder K] (I : LsqI K S) (y : S) (O : Mat K) (path : String) (fs : FS K) :
    FS K × Except Err Unit :=
  match I.save y fs path with
  | (fs', .error e) => (fs', unlessMissing (.error e))
  | (fs', .ok ()) => (fs', unlessMissing (I.checkLoaded y O fs' path))

/-- The name of the temporary file: _base.py:307. -/
def lsqTempFile : String := "_solververification.h5"

/-- `SolverTemplate.verify()`: _base.py:299-353. -/
def LsqI.verify [Field K] [LinearOrder K] (I : LsqI K S) (x : S) (fs : FS K) : FS K × Except Err Unit :=
  match I.dims x with
  | none => (fs, .ok ())
  | some (r, d, _) => match I.checkSolve x r d with
    | .error e => (fs.remove lsqTempFile, .error e)
    | .ok (y, O) =>
      let c := I.checkFile y O lsqTempFile fs
      (c.1.remove lsqTempFile, c.2)

/-! ### The solvers of the package -/

/-- `r`, `d`, `k` of the stored data: _base.py:108-126. -/
def dataDims : Option (Mat K × Mat K) → Option (Nat × Nat × Nat)
  | none => none
  | some (D, Z) => some (Z.nrows, D.ncols, D.nrows)

/-- The methods of a class of the package, with its `solve`, `copy`, `save` and `load`. -/
def fileLsqI (data : S → Option (Mat K × Mat K)) (solve : SolverFile S K → Except Err (Mat K)) (copy : S → Except Err S)
    (save : SolverFile S K → Saved K) (load : H5 K → Except Err (SolverFile S K)) : LsqI K (SolverFile S K) where
  dims x := dataDims (data x.solver)
  solve x := (solve x).map NdArg.mat
  copy x := (copy x.solver).map fun s => ⟨s, x.opts⟩
  sameClass _ _ := true
  save x fs path := ((saveFile fs path true (save x)).1, (saveFile fs path true (save x)).2.1)
  load _ fs path := loadFile fs path load

/-- `PlainSolver.copy`: _base.py:473-481. -/
def Plain.copy (s : Plain K) : Except Err (Plain K) :=
  match s.data with
  | none => .ok ⟨none⟩
  | some (D, Z) => (templateFit (.mat D) (.mat Z)).map fun x => ⟨some x⟩

/-- `PlainSolver`; `lstsq` is `scipy.linalg.lstsq` with the options. -/
def plainLsqI [Zero K] (lstsq : Opts K → Mat K → Mat K → Except Err (Mat K)) : LsqI K (SolverFile (Plain K) K) :=
  fileLsqI Plain.data (fun x => x.solver.solve (lstsq x.opts)) Plain.copy Plain.save Plain.load

/-- `L2Solver`. -/
def l2LsqI [Field K] [LinearOrder K] : LsqI K (SolverFile (L2 K K) K) :=
  fileLsqI L2.data (fun x => x.solver.solve) L2.copy L2.save L2.load

/-- `L2DecoupledSolver`. -/
def l2DecLsqI [Field K] [LinearOrder K] : LsqI K (SolverFile (L2 (List K) K) K) :=
  fileLsqI L2.data (fun x => x.solver.solveDec) L2.copy L2.saveDec L2.loadDec

/-- `TikhonovSolver`; the library routines depend on the options. -/
def tikLsqI [Field K] (lstsq posSolve : Opts K → Mat K → Mat K → Except Err (Mat K)) :
    LsqI K (SolverFile (Tik (Mat K) K) K) :=
  fileLsqI Tik.data (fun x => x.solver.solve (lstsq x.opts) (posSolve x.opts)) Tik.copy Tik.save Tik.load

/-- `TikhonovDecoupledSolver`. -/
def tikDecLsqI [Field K] (junk : K) (lstsq posSolve : Opts K → Mat K → Mat K → Except Err (Mat K)) :
    LsqI K (SolverFile (Tik (List (Mat K)) K) K) :=
  fileLsqI Tik.data (fun x => x.solver.solveDec junk (lstsq x.opts) (posSolve x.opts)) Tik.copy Tik.saveDec Tik.loadDec

/-- `TruncatedSVDSolver`. -/
def tsvdLsqI [Field K] [LinearOrder K] : LsqI K (SolverFile (Tsvd K) K) :=
  fileLsqI Tsvd.data (fun x => x.solver.solve) Tsvd.copy Tsvd.save Tsvd.load

/-- `TotalLeastSquaresSolver`. -/
def tlsLsqI : LsqI K (SolverFile (Tls K) K) :=
  fileLsqI Tls.data (fun x => x.solver.solve) Tls.copy Tls.save Tls.load

end Opinf
