import Verif.Model.Operators
import Verif.Model.Gridsearch

/-!
# `set_entries` of the nonparametric operators for every kind of argument

`OpKind.setEntries` (Model/Operators) starts from a finite two-dimensional array. This file models
what the code does before: promotion of scalars, screening of NaN and Inf entries, arrays of any
number of dimensions, sparse matrices and objects that are not arrays; and the attribute `entries`
of an operator under a sequence of assignments and deletions.
-/

namespace Opinf

open List

variable {K : Type}

/-- The argument of `set_entries`: a scalar (`np.isscalar`), a dense array with its shape and its
data in C order, a two-dimensional `scipy.sparse` array, or any other object (list, tuple, None,
..) together with `np.shape` of it and the data of `np.asarray`. Scalars that are not numbers
(strings) and one-dimensional sparse arrays are left out. -/
inductive EntryArg (K : Type)
  | scalar (x : Val K)
  | array (shape : List Nat) (data : List (Val K))
  | sparse (r c : Nat) (rows : List (List (Val K)))
  | other (shape : List Nat) (data : List (Val K))
  deriving DecidableEq, Repr

/-- `np.isnan`. -/
def Val.isNan : Val K → Bool
  | .nan => true
  | _ => false

/-- `np.isinf`. -/
def Val.isInf : Val K → Bool
  | .inf => true
  | .ninf => true
  | _ => false

/-- The number, if it is one. -/
def Val.get? : Val K → Option K
  | .num x => some x
  | _ => none

/-- The two value checks of `_validate_entries` on a dense array, _base.py:563-566; the remaining
entries are numbers. -/
def screenEntries (data : List (Val K)) : Except Err (List K) :=
  if data.any Val.isNan then .error .value
  else if data.any Val.isInf then .error .value
  else .ok (data.filterMap Val.get?)

/-- What the classes do first: `ConstantOperator` makes sparse matrices dense and scalars
one-dimensional (_nonparametric.py:78-81); the others make scalars and everything of shape `(1,)`
two-dimensional (_nonparametric.py:247-251, 453-454, 940-941, 1415-1416, 1887-1888, 2061-2062).
`LinearOperator` also converts sparse matrices to the CSR format, which does not change the
matrix. -/
def OpKind.promote : OpKind → EntryArg K → EntryArg K
  | .const, .sparse r c rows => .array [r, c] rows.flatten
  | .const, .scalar x => .array [1] [x]
  | .const, a => a
  | _, .scalar x => .array [1, 1] [x]
  | _, .array [1] data => .array [1, 1] data
  | _, .other [1] data => .array [1, 1] data
  | _, a => a

/-- The two-dimensional array with the given shape and data (C order). -/
def matOf (r c : Nat) (data : List K) : Mat K := ⟨r, c, chunks c r data⟩

/-- `if entries.ndim == p + 1 and len(set(entries.shape)) == 1: entries =
entries.reshape((entries.shape[0], -1))`, _nonparametric.py:458-460, 945-947, 1420-1422. numpy
cannot infer the missing dimension of an empty array. -/
def tensorShape (p : Nat) (shape : List Nat) (size : Nat) : Except Err (List Nat) :=
  if shape.length = p + 1 ∧ shape.dedup.length = 1 then
    if shape.headD 0 = 0 then .error .value else .ok [shape.headD 0, size / shape.headD 0]
  else .ok shape

/-- The shape checks of `set_entries` on a dense array of numbers and the entries that are stored:
_nonparametric.py:84-94 (constant: an `(r,)` vector, kept as an `r x 1` matrix here), 255-260
(linear), 457-474, 944-959, 1419-1434 (Kronecker), 1891-1898 (input), 2065-2075 (state-input; with
`r = 0` Python's `rm // r` raises). -/
def OpKind.setDense [AddMonoid K] (o : OpKind) (shape : List Nat) (data : List K) :
    Except Err (Mat K) :=
  match o with
  | .const =>
    match shape with
    | [n] => .ok (matOf n 1 data)
    | [a, b] => if a = 1 ∨ b = 1 then .ok (matOf data.length 1 data) else .error .value
    | _ => .error .value
  | .lin =>
    match shape with
    | [r, c] => if r = c then .ok (matOf r c data) else .error .value
    | _ => .error .value
  | .kron k => do
    match ← tensorShape k.deg shape data.length with
    | [r, c] => (OpKind.kron k).setEntries (matOf r c data)
    | _ => .error .value
  | .inp =>
    match shape with
    | [n] => .ok (matOf n 1 data)
    | [r, c] => .ok (matOf r c data)
    | _ => .error .value
  | .stateInp =>
    match shape with
    | [r, c] =>
      if r = 0 then .error .zeroDivision
      else if c = r * (c / r) then .ok (matOf r c data)
      else .error .value
    | _ => .error .value

/-- The same checks on a sparse matrix, which `_validate_entries` lets pass without looking at its
values (_base.py:558-559). What `compress_entries` does with a sparse matrix depends on the scipy
version and is the parameter `cmp`. (`ConstantOperator` never gets here, see `OpKind.promote`.) -/
def OpKind.setSparse (cmp : Kind → Mat (Val K) → Except Err (Mat (Val K))) (o : OpKind)
    (M : Mat (Val K)) : Except Err (Mat (Val K)) :=
  match o with
  | .const => .error .value
  | .lin => if M.nrows = M.ncols then .ok M else .error .value
  | .kron k =>
    if M.ncols = M.nrows ^ k.deg then cmp k M
    else if M.ncols ≠ k.dim M.nrows then .error .value
    else .ok M
  | .inp => .ok M
  | .stateInp =>
    if M.nrows = 0 then .error .zeroDivision
    else if M.ncols = M.nrows * (M.ncols / M.nrows) then .ok M
    else .error .value

/-- Numbers as floating point values. -/
def Mat.toVal (M : Mat K) : Mat (Val K) := ⟨M.nrows, M.ncols, M.rows.map (·.map .num)⟩

/-- The entries stored by `set_entries(entries)`, or the exception raised: promotion,
`_validate_entries` (_base.py:555-566), shape checks. -/
def OpKind.newEntries [AddMonoid K] (cmp : Kind → Mat (Val K) → Except Err (Mat (Val K)))
    (o : OpKind) (a : EntryArg K) : Except Err (Mat (Val K)) :=
  match o.promote a with
  | .sparse r c rows => o.setSparse cmp ⟨r, c, rows⟩
  | .array shape data => do
    let xs ← screenEntries data
    let M ← o.setDense shape xs
    return M.toVal
  | _ => .error .type

/-- An operator object: its class and its attribute `entries`. (The cached arrays `_mask` and
`_prejac` of the Kronecker classes are part of `KronOp`.) -/
structure EntOp (K : Type) where
  kind : OpKind
  entries : Option (Mat (Val K))
  deriving DecidableEq

/-- `set_entries(entries)` and `op.entries = entries`: the attribute is assigned at the very end
(_base.py:568-570, 581-584), so that an operator whose new entries are refused keeps its old
ones. -/
def EntOp.set [AddMonoid K] (cmp : Kind → Mat (Val K) → Except Err (Mat (Val K))) (op : EntOp K)
    (a : EntryArg K) : Except Err Unit × EntOp K :=
  match op.kind.newEntries cmp a with
  | .ok M => (.ok (), { op with entries := some M })
  | .error e => (.error e, op)

/-- `del op.entries`: `_clear()`, _base.py:550-552, 586-589. -/
def EntOp.del (op : EntOp K) : EntOp K := { op with entries := Option.none }

/-- `Operator(entries=None)`: _base.py:543-548. -/
def EntOp.make [AddMonoid K] (cmp : Kind → Mat (Val K) → Except Err (Mat (Val K))) (o : OpKind)
    (a : Option (EntryArg K)) : Except Err (EntOp K) :=
  match a with
  | Option.none => .ok ⟨o, Option.none⟩
  | some a =>
    match (⟨o, Option.none⟩ : EntOp K).set cmp a with
    | (.ok _, op) => .ok op
    | (.error e, _) => .error e

/-- `op.shape`: _base.py:591-594 (the entries of a constant operator are one-dimensional). -/
def EntOp.shape (op : EntOp K) : Option (List Nat) :=
  op.entries.map fun M => if op.kind = .const then [M.nrows] else [M.nrows, M.ncols]

/-- `op.state_dimension`: _base.py:596-601. -/
def EntOp.stateDim (op : EntOp K) : Option Nat := op.entries.map fun M => M.nrows

/-- An assignment to or deletion of the attribute `entries`. -/
inductive EntStep (K : Type)
  | set (a : EntryArg K)
  | del
  deriving DecidableEq

/-- One step; exceptions are caught by the caller and the object lives on. -/
def EntOp.step [AddMonoid K] (cmp : Kind → Mat (Val K) → Except Err (Mat (Val K))) (op : EntOp K) :
    EntStep K → EntOp K
  | .set a => (op.set cmp a).2
  | .del => op.del

end Opinf
