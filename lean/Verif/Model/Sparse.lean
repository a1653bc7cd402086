import Verif.Model.Affine
import Verif.Model.Hdf5

/-!
# Sparse arrays in HDF5 files

Models `save_sparray` and `load_sparray` (`/repo/src/opinf/utils/_hdf5.py`) and their use in
`/repo/src/opinf/operators/_affine.py`.

Simplifications: two-dimensional sparse arrays; a sparse array is given by its format, by whether its class is one of
the array classes (`csr_array`, ...) or of the matrix classes (`csr_matrix`, ...), and by its stored entries as
`tocoo()` lists them. Explicitly stored zeros of the block and diagonal formats and the order of the stored entries
after a conversion are not modelled.
-/

namespace Opinf

open List

variable {K : Type}

/-- The formats of `scipy.sparse`. -/
inductive SpFormat
  | bsr | coo | csc | csr | dia | dok | lil
  deriving DecidableEq, Repr

/-- The first three letters of the class name. -/
def SpFormat.label : SpFormat → String
  | .bsr => "bsr"
  | .coo => "coo"
  | .csc => "csc"
  | .csr => "csr"
  | .dia => "dia"
  | .dok => "dok"
  | .lil => "lil"

/-- A sparse array. `items` are the stored entries: row, column, value; repeated positions are added up, as
`scipy.sparse` does. -/
structure SpArray (K : Type) where
  format : SpFormat
  isArray : Bool
  nrows : Nat
  ncols : Nat
  items : List (Nat × Nat × K)
  deriving DecidableEq, Repr

/-- An array passed to `save_sparray`, or held as a term of an affine operator: dense or sparse. -/
inductive AnyArray (K : Type)
  | dense (A : Mat K)
  | sparse (A : SpArray K)

/-- The entry at a position: the sum of all entries stored for it. -/
def SpArray.entryAt [AddMonoid K] (A : SpArray K) (i j : Nat) : K :=
  ((A.items.filter fun t => t.1 == i && t.2.1 == j).map fun t => t.2.2).sum

/-- `A.toarray()`. -/
def SpArray.toDense [AddMonoid K] (A : SpArray K) : Mat K :=
  ⟨A.nrows, A.ncols, (range A.nrows).map fun i => (range A.ncols).map fun j => A.entryAt i j⟩

/-- `save_sparray(group, arr)`: _hdf5.py:176-185. The group is new. -/
def saveSparray : AnyArray K → Except Err (H5 K)
  | .dense _ => .error .type
  | .sparse A => .ok (.node [("data", .arr (A.items.map fun t => t.2.2)), ("row", .nats (A.items.map fun t => t.1)),
      ("col", .nats (A.items.map fun t => t.2.1)), ("shape", .nats [A.nrows, A.ncols]), ("arrtype", .str A.format.label)] [])

/-- Adding a stored entry to a list without repeated positions. -/
def addItem [Add K] (i j : Nat) (x : K) : List (Nat × Nat × K) → List (Nat × Nat × K)
  | [] => [(i, j, x)]
  | t :: ts => if t.1 = i ∧ t.2.1 = j then (i, j, t.2.2 + x) :: ts else t :: addItem i j x ts

/-- Adding up the entries stored for the same position, which every conversion from the coordinate format to another
format does. -/
def sumDuplicates [Add K] (l : List (Nat × Nat × K)) : List (Nat × Nat × K) :=
  l.foldl (fun acc t => addItem t.1 t.2.1 t.2.2 acc) []

/-- `getattr(A, "to" + arrtype)()` of a `coo_matrix`: another name raises `AttributeError`. The result belongs to the
matrix classes, as `A` does. -/
def cooTo [Add K] (A : SpArray K) (label : String) : Except Err (SpArray K) :=
  if label = "coo" then .ok A
  else match [SpFormat.bsr, .csc, .csr, .dia, .dok, .lil].find? fun f => f.label == label with
    | none => .error .attribute
    | some f => .ok ⟨f, A.isArray, A.nrows, A.ncols, sumDuplicates A.items⟩

/-- `sparse.coo_matrix((data, (row, col)), shape=shape)`: `ValueError` for different lengths, indices outside the shape
and shapes that are not two-dimensional. -/
def cooMatrix (data : List K) (row col shape : List Nat) : Except Err (SpArray K) :=
  match shape with
  | [n, m] =>
    if row.length ≠ data.length ∨ col.length ≠ data.length then .error .value
    else if row.any (fun i => n ≤ i) || col.any (fun j => m ≤ j) then .error .value
    else .ok ⟨.coo, false, n, m, zip row (zip col data)⟩
  | _ => .error .value

/-- `load_sparray(group)`: _hdf5.py:235-240. -/
def loadSparray [Add K] (g : H5 K) : Except Err (SpArray K) := do
  let data ← g.arr "data"
  let row ← g.nats "row"
  let col ← g.nats "col"
  let shape ← g.nats "shape"
  let A ← cooMatrix data row col shape
  let label ← g.str "arrtype"
  cooTo A label

/-- `A * x` with a sparse `A` on the left: matrix classes multiply matrices, array classes multiply entry by entry;
both raise `ValueError` for shapes that do not fit. Broadcasting of one-row and one-column arrays is not modelled. -/
def SpArray.star [Semiring K] (A B : SpArray K) : Except Err (Mat K) :=
  if A.isArray then
    if A.nrows = B.nrows ∧ A.ncols = B.ncols then
      .ok ⟨A.nrows, A.ncols, zipWith (zipWith (· * ·)) A.toDense.rows B.toDense.rows⟩
    else .error .value
  else if A.ncols = B.nrows then
    .ok ⟨A.nrows, B.ncols, matMul B.ncols A.toDense.rows B.toDense.rows⟩
  else .error .value

/-- Writing one term of an affine operator: _affine.py:457-462. A data set is a node with one value. -/
def saveTerm : AnyArray K → Except Err (H5 K)
  | .dense A => .ok (.node [("dataset", .mat A)] [])
  | .sparse A => saveSparray (.sparse A)

/-- Reading one term of an affine operator: _affine.py:494-498. -/
def loadTerm [Add K] (g : H5 K) : Except Err (AnyArray K) :=
  match g.get? "dataset" with
  | some (.mat A) => .ok (.dense A)
  | _ => match loadSparray g with
    | .error e => .error e
    | .ok A => .ok (.sparse A)

/-- The group `entries` of the file of an affine operator: _affine.py:455-462. -/
def saveTerms (As : List (AnyArray K)) : Except Err (H5 K) :=
  match As.mapM saveTerm with
  | .error e => .error e
  | .ok gs => .ok (.node [] gs)

/-- Reading the group `entries`: _affine.py:490-498. -/
def loadTerms [Add K] (g : H5 K) : Except Err (List (AnyArray K)) := g.subs.mapM loadTerm

/-- The dense array with the same entries. -/
def AnyArray.toMat [AddMonoid K] : AnyArray K → Mat K
  | .dense A => A
  | .sparse A => A.toDense

end Opinf
