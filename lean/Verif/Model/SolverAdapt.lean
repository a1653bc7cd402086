import Verif.Model.Mono
import Verif.Model.Lstsq

/-!
# The built-in solvers as solvers of a model

`model._fit_solver` calls `solver.fit(D, lhs)` with two-dimensional arrays and `model.refit` calls
`solver.solve()`: /repo/src/opinf/models/mono/_nonparametric.py:238-270. A model keeps `lhs` as a list of
columns, a solver takes it as a matrix. Without any column the number of rows is not known to the list;
training without data is modelled as `ValueError`.
-/

namespace Opinf

open List

variable {K : Type}

/-- The `r × k` array with the given columns. -/
def lhsMat [Zero K] (Z : List (List K)) : Mat K :=
  ⟨(Z.headD []).length, Z.length, transpose (Z.headD []).length Z⟩

/-- `PlainSolver` in a model. -/
def plainSolver [Zero K] (lstsq : Mat K → Mat K → Except Err (Mat K)) : SolverI K (Plain K) where
  fit s D Z := if Z.isEmpty then (s, .error .value) else s.fit (.mat D) (.mat (lhsMat Z))
  solve := Plain.solve lstsq

/-- `L2Solver` in a model. -/
def l2Solver [Field K] [DecidableEq K] (svd : Mat K → Except Err (Svd K)) : SolverI K (L2 K K) where
  fit s D Z := if Z.isEmpty then (s, .error .value) else s.fit svd (.mat D) (.mat (lhsMat Z))
  solve := L2.solve

/-- `L2DecoupledSolver` in a model. -/
def l2DecSolver [Field K] [DecidableEq K] (svd : Mat K → Except Err (Svd K)) :
    SolverI K (L2 (List K) K) where
  fit s D Z := if Z.isEmpty then (s, .error .value) else s.fitDec svd (.mat D) (.mat (lhsMat Z))
  solve := L2.solveDec

/-- `TikhonovSolver` in a model. -/
def tikSolver [Semiring K] (lstsq posSolve : Mat K → Mat K → Except Err (Mat K)) :
    SolverI K (Tik (Mat K) K) where
  fit s D Z := if Z.isEmpty then (s, .error .value) else s.fit1 (.mat D) (.mat (lhsMat Z))
  solve := Tik.solve lstsq posSolve

/-- `TruncatedSVDSolver` in a model. -/
def tsvdSolver [Field K] [DecidableEq K] (svd : Mat K → Except Err (Svd K)) : SolverI K (Tsvd K) where
  fit s D Z := if Z.isEmpty then (s, .error .value) else s.fit svd (.mat D) (.mat (lhsMat Z))
  solve := Tsvd.solve

end Opinf
