import Verif.Model.RomFit

/-!
# Model of `NonuniformFiniteDifferencer` as the derivative estimator of a reduced-order model
-/

namespace Opinf

open List

variable {K : Type}

/-- Inputs as a two-dimensional array; `inputs.reshape((1, -1))` for one-dimensional ones:
/repo/src/opinf/ddt/_base.py:110-111. -/
def Snap.inRows : Snap K → Snap K
  | .vec u => .mat u.length [u]
  | .mat l us => .mat l us

/-- A `NonuniformFiniteDifferencer` with the time domain `t`:
/repo/src/opinf/ddt/_finite_difference.py:965-994, with the checks of /repo/src/opinf/ddt/_base.py:101-116. -/
def nuDdt [Field K] (t : List K) : DdtI K where
  estimate Q := match Q with
    | .vec _ => .error .dimensionality
    | .mat k rows => (ddtNonuniform t ⟨rows.length, k, rows⟩).map fun D => (.mat k rows, D.toSnap)
  estimateWith Q U := match Q with
    | .vec _ => .error .dimensionality
    | .mat k rows =>
      if k ≠ t.length then .error .dimensionality
      else if U.inRows.ncolumns ≠ k then .error .dimensionality
      else (ddtNonuniform t ⟨rows.length, k, rows⟩).map fun D => (.mat k rows, D.toSnap, U.inRows)

end Opinf
