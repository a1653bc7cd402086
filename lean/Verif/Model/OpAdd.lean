import Verif.Model.Mono
import Verif.Model.VerifyDdt

/-!
# Sums of operators

/repo/src/opinf/operators/_base.py:623-630 (`OpInfOperator.__add__`).

Simplification: as everywhere, the one-dimensional entries of a constant operator are an `r × 1` matrix.
-/

namespace Opinf

open List

variable {K : Type}

/-- `A + B` for two-dimensional arrays, with numpy's broadcasting. -/
def badd [Zero K] [Add K] (A B : Mat K) : Except Err (Mat K) := do
  let n ← bdim A.nrows B.nrows
  let m ← bdim A.ncols B.ncols
  return ⟨n, m, (range n).map fun i => (range m).map fun j => A.bget i j + B.bget i j⟩

/-- `a + b`: _base.py:623-630. Another class raises `TypeError` (625-629); so does `None` in the sum of the entries; the
constructor (630) passes the sum through `set_entries`. -/
def Op.add [AddMonoid K] (a b : Op K) : Except Err (Op K) :=
  if a.kind ≠ b.kind then .error .type
  else match a.entries, b.entries with
    | some A, some B => do
      let E ← badd A B
      let C ← a.kind.setEntries E
      return ⟨a.kind, some C⟩
    | _, _ => .error .type

end Opinf
