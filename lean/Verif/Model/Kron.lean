import Verif.Model.Core
import Mathlib.Data.List.Permutation
import Mathlib.Data.List.Dedup
import Mathlib.Data.Nat.Choose.Basic

/-!
# Quadratic, cubic and quartic operators, and `PolynomialOperator`

Models `/repo/src/opinf/operators/_nonparametric.py` (classes `QuadraticOperator`,
`CubicOperator`, `QuarticOperator`) and `/repo/src/opinf/operators/_polynomial_operator.py`.
The three Kronecker operator classes have the same structure with different loops;
`Kind` selects the class, and each function matches on it with the loops of that class.
-/

namespace Opinf

open List

variable {K : Type*}

/-- Which class: `QuadraticOperator`, `CubicOperator` or `QuarticOperator`. -/
inductive Kind
  | quad | cubic | quartic
  deriving DecidableEq, Repr

/-- The number of Kronecker factors of the class. -/
def Kind.deg : Kind → Nat
  | .quad => 2
  | .cubic => 3
  | .quartic => 4

/-- `operator_dimension(r)`: _nonparametric.py:606 (quadratic), 1098 (cubic), 1580 (quartic). -/
def Kind.dim : Kind → Nat → Nat
  | .quad, r => r * (r + 1) / 2
  | .cubic, r => r * (r + 1) * (r + 2) / 6
  | .quartic, r => r * (r + 1) * (r + 2) * (r + 3) / 24

/-- `QuadraticOperator.ckron(state)` for a one-dimensional state, _nonparametric.py:699-702. -/
def ckron2 [MulZeroClass K] (q : List K) : List K :=
  (range q.length).flatMap fun i => (q.take (i + 1)).map (q.getD i 0 * ·)

/-- `CubicOperator.ckron(state)`, _nonparametric.py:1149-1154; `lens[i] = binom(i + 2, 2)`. -/
def ckron3 [MulZeroClass K] (q : List K) : List K :=
  (range q.length).flatMap fun i =>
    ((ckron2 q).take (Nat.choose (i + 2) 2)).map (q.getD i 0 * ·)

/-- `QuarticOperator.ckron(state)`, _nonparametric.py:1635-1640; `lens[i] = binom(i + 3, 3)`. -/
def ckron4 [MulZeroClass K] (q : List K) : List K :=
  (range q.length).flatMap fun i =>
    ((ckron3 q).take (Nat.choose (i + 3) 3)).map (q.getD i 0 * ·)

/-- `ckron` of the class. `np.concatenate` of an empty list (r = 0) raises `ValueError` in
the code; that case is guarded in `datablock`. -/
def Kind.ckron [MulZeroClass K] : Kind → List K → List K
  | .quad, q => ckron2 q
  | .cubic, q => ckron3 q
  | .quartic, q => ckron4 q

/-- `ckron_indices(r)`: _nonparametric.py:731-737, 1183-1190, 1669-1677 (rows of the mask). -/
def Kind.indices : Kind → Nat → List (List Nat)
  | .quad, r => (range r).flatMap fun i => (range (i + 1)).map fun j => [i, j]
  | .cubic, r => (range r).flatMap fun i => (range (i + 1)).flatMap fun j =>
      (range (j + 1)).map fun k => [i, j, k]
  | .quartic, r => (range r).flatMap fun i => (range (i + 1)).flatMap fun j =>
      (range (j + 1)).flatMap fun k => (range (k + 1)).map fun l => [i, j, k, l]

/-- Column index `(a * r**2) + (b * r) + c` (cubic, _nonparametric.py:1243) and
`(a * r**3) + (b * r**2) + (c * r) + d` (quartic, :1733) of an index tuple. -/
def colIdx (r : Nat) : List Nat → Nat
  | [a, b] => a * r + b
  | [a, b, c] => a * r ^ 2 + b * r + c
  | [a, b, c, d] => a * r ^ 3 + b * r ^ 2 + c * r + d
  | _ => 0

/-- `set(itertools.permutations(t))`: the distinct rearrangements of the tuple (the iteration order
of a Python set does not matter for a sum in exact arithmetic, nor for writing one value to all of
these positions). -/
def permSet (t : List Nat) : List (List Nat) := t.permutations'.dedup

/-- One row of `compress_entries`: _nonparametric.py:782-790 (quadratic), 1236-1246 (cubic),
1724-1738 (quartic). -/
def Kind.compressRow [AddMonoid K] : Kind → Nat → List K → List K
  | .quad, r, h => (range r).flatMap fun i => (range (i + 1)).map fun j =>
      if i = j then h.getD (i * r + j) 0 else h.getD (i * r + j) 0 + h.getD (j * r + i) 0
  | .cubic, r, g => (range r).flatMap fun i => (range (i + 1)).flatMap fun j =>
      (range (j + 1)).map fun k =>
        ((permSet [i, j, k]).map fun t => g.getD (colIdx r t) 0).sum
  | .quartic, r, g => (range r).flatMap fun i => (range (i + 1)).flatMap fun j =>
      (range (j + 1)).flatMap fun k => (range (k + 1)).map fun l =>
        ((permSet [i, j, k, l]).map fun t => g.getD (colIdx r t) 0).sum

/-- The integer `r` with `r**p == n`, if any. The code computes `int(round(n ** (1/p)))` in
floating point and checks `r**p == n` (_nonparametric.py:776, 1230, 1718); the model searches for
the exact root, i.e. floating-point rounding of the root is not modelled. -/
def exactRoot (p n : Nat) : Option Nat := (range (n + 1)).find? fun r => r ^ p = n

/-- The integer `r` with `operator_dimension(r) == b`, if any. The code computes a candidate by
`sqrt` (_nonparametric.py:835) or Newton's method (:1311-1323, :1806-1821) in floating point and
then checks the equation; the model searches for the exact solution. -/
def Kind.rOfDim (k : Kind) (b : Nat) : Option Nat := (range (b + 1)).find? fun r => k.dim r = b

/-- `compress_entries(H)`, _nonparametric.py:773-792, 1227-1248, 1715-1740. -/
def Kind.compress [AddMonoid K] (k : Kind) (H : Mat K) : Except Err (Mat K) :=
  match exactRoot k.deg H.ncols with
  | none => .error .value
  | some r => .ok ⟨H.nrows, k.dim r, H.rows.map (k.compressRow r)⟩

/-- In-place assignments `H[pos] = value`, in order. -/
def scatter (init : List K) (writes : List (Nat × K)) : List K :=
  writes.foldl (fun acc w => acc.set w.1 w.2) init

/-- The assignments performed by `expand_entries` for one row: _nonparametric.py:841-852,
1295-1304, 1789-1799. Zipping the loop with the row plays the role of the counter `fj`. -/
def Kind.expandWrites [DivisionRing K] (k : Kind) (r : Nat) (hc : List K) : List (Nat × K) :=
  (List.zip (k.indices r) hc).flatMap fun (t, x) =>
    match k, t with
    | .quad, [i, j] =>
        if i = j then [(i * r + j, x)] else [(i * r + j, x / 2), (j * r + i, x / 2)]
    | .quad, _ => []
    | _, t =>
        (permSet t).map fun s => (colIdx r s, x / ((permSet t).length : K))

/-- `expand_entries(Hc)`, _nonparametric.py:832-854, 1287-1308, 1781-1803. `junk` is the content of
the uninitialised array `np.empty(..)`. -/
def Kind.expand [DivisionRing K] (junk : K) (k : Kind) (Hc : Mat K) : Except Err (Mat K) :=
  match k.rOfDim Hc.ncols with
  | none => .error .value
  | some r => .ok ⟨Hc.nrows, r ^ k.deg,
      Hc.rows.map fun hc => scatter (replicate (r ^ k.deg) junk) (k.expandWrites r hc)⟩

/-- One row (fixed output index) of the pre-Jacobian tensor, flattened in C order:
_nonparametric.py:414-416 `Ht + Ht.transpose(0, 2, 1)`,
:901-903 `Gt + Gt.transpose(0, 2, 1, 3) + Gt.transpose(0, 3, 1, 2)`,
:1371-1378 `Gt + Gt.transpose(0, 2, 1, 3, 4) + Gt.transpose(0, 3, 2, 1, 4) +
Gt.transpose(0, 4, 2, 3, 1)`. (`T.transpose(axes)[x] = T[y]` with `y[axes[j]] = x[j]`.) -/
def Kind.prejacRow [Add K] [Zero K] : Kind → Nat → List K → List K
  | .quad, r, h => (range r).flatMap fun j => (range r).map fun k =>
      h.getD (colIdx r [j, k]) 0 + h.getD (colIdx r [k, j]) 0
  | .cubic, r, g => (range r).flatMap fun j => (range r).flatMap fun k => (range r).map fun l =>
      g.getD (colIdx r [j, k, l]) 0 + g.getD (colIdx r [k, j, l]) 0 + g.getD (colIdx r [k, l, j]) 0
  | .quartic, r, g => (range r).flatMap fun j => (range r).flatMap fun k =>
      (range r).flatMap fun l => (range r).map fun m =>
        g.getD (colIdx r [j, k, l, m]) 0 + g.getD (colIdx r [k, j, l, m]) 0
          + g.getD (colIdx r [l, k, j, m]) 0 + g.getD (colIdx r [m, k, l, j]) 0

/-- `T @ q` for a tensor stored flat in C order: contraction of the last axis (length `r`). -/
def contractLast [Semiring K] (r : Nat) (t q : List K) : List K :=
  (range (t.length / r)).map fun a => dot ((t.drop (a * r)).take r) q

/-- State of a `QuadraticOperator`/`CubicOperator`/`QuarticOperator` object: the attributes
`_entries` and `_prejac` (`_mask` is always `ckron_indices(r)` of the current entries). -/
structure KronOp (K : Type*) where
  kind : Kind
  entries : Option (Mat K)
  prejac : Option (List (List K))
  deriving DecidableEq

/-- `Operator()` without entries, `_clear`: _nonparametric.py:404-408, 891-895, 1361-1365. -/
def KronOp.empty (k : Kind) : KronOp K := ⟨k, none, none⟩

/-- `set_entries(entries)` with a two-dimensional array: _nonparametric.py:458-474, 945-959,
1420-1434. Scalars and `(1,)` arrays are first turned into 1x1 arrays and `(r, .., r)` tensors
into `(r, r^p)` matrices by the code; the validation of NaN/Inf entries (_base.py:555-566) is not
modelled. -/
def KronOp.setEntries [AddMonoid K] (op : KronOp K) (E : Mat K) : Except Err (KronOp K) :=
  if E.ncols = E.nrows ^ op.kind.deg then do
    let C ← op.kind.compress E
    return ⟨op.kind, some C, none⟩
  else if E.ncols ≠ op.kind.dim E.nrows then
    .error .value
  else
    .ok ⟨op.kind, some E, none⟩

/-- `apply(state)`: _nonparametric.py:493-495, 978-980, 1453-1455. `requires("entries")` raises
`AttributeError` (utils/_requires.py:37-45). Fancy indexing `state[mask]` raises `IndexError` if the
state is too short. -/
def KronOp.apply [CommSemiring K] (op : KronOp K) (q : List K) : Except Err (List K) :=
  match op.entries with
  | none => .error .attribute
  | some E =>
    if E.nrows = 1 then
      .ok (q.map fun x => (E.rows.getD 0 []).getD 0 0 * x ^ op.kind.deg)
    else if q.length < E.nrows then
      .error .index
    else
      .ok (matVec E.rows ((op.kind.indices E.nrows).map fun t => (t.map fun i => q.getD i 0).prod))

/-- `_precompute_jacobian_jit()`: _nonparametric.py:410-416, 897-903, 1367-1378. -/
def KronOp.precompute [Field K] (junk : K) (kind : Kind) (E : Mat K) :
    Except Err (List (List K)) := do
  let H ← kind.expand junk E
  return H.rows.map (kind.prejacRow E.nrows)

/-- `jacobian(state)`: _nonparametric.py:516-518, 1005-1008, 1480-1483. Returns the outcome and the
updated object (the pre-Jacobian is computed just in time and cached, also when the product with
the state fails afterwards). A state of the wrong length makes `@` raise `ValueError`. -/
def KronOp.jacobian [Field K] (junk : K) (op : KronOp K) (q : List K) :
    Except Err (List (List K)) × KronOp K :=
  match op.entries with
  | none => (.error .attribute, op)
  | some E =>
    match (match op.prejac with
      | some P => Except.ok P
      | none => KronOp.precompute junk op.kind E) with
    | .error e => (.error e, op)
    | .ok P =>
      let op' := { op with prejac := some P }
      if q.length ≠ E.nrows then (.error .value, op')
      else (.ok (P.map fun t => (fun t => contractLast E.nrows t q)^[op.kind.deg - 1] t), op')

/-- `datablock(states)` for states given as a list of columns: _nonparametric.py:592, 1084, 1566.
Returned as a list of columns. `r = 0` raises `ValueError` (`np.concatenate([])`). -/
def Kind.datablock [MulZeroClass K] (k : Kind) (r : Nat) (states : List (List K)) :
    Except Err (List (List K)) :=
  if r = 0 then .error .value else .ok (states.map k.ckron)

/-! ### PolynomialOperator -/

/-- `PolynomialOperator(p).operator_dimension(r)`: _polynomial_operator.py:66-87;
`comb(r, p, repetition=True) = comb(r + p - 1, p)` (scipy). Negative or fractional `r` raise
`ValueError` and are excluded by the type. -/
def polyDim (p r : Nat) : Nat := if p = 0 then 1 else Nat.choose (r + p - 1) p

/-- `keptIndices_p(r, p)`: _polynomial_operator.py:122-147. -/
def keptIndices (r : Nat) : Nat → List Nat
  | 0 => [0]
  | p + 1 => (range r).flatMap fun i =>
      (((range (r * polyDim p r)).drop (i * polyDim p r)).take (polyDim p r)).take
        (polyDim p (i + 1))

/-- `exp_p(x, p)` for a one-dimensional `x`: _polynomial_operator.py:150-185. -/
def expP [MulZeroOneClass K] (x : List K) : Nat → List K
  | 0 => [1]
  | 1 => x
  | p + 2 => (keptIndices x.length (p + 2)).map fun i => (kron x (expP x (p + 1))).getD i 0

/-- `PolynomialOperator.apply(state)` for a one-dimensional state and two-dimensional entries:
_polynomial_operator.py:192-222. -/
def polyApply [CommSemiring K] (p : Nat) (E : Mat K) (q : List K) : Except Err (List K) :=
  if q.length ≠ E.nrows then .error .value
  else if p = 0 then .ok (E.rows.map fun row => row.getD 0 0)
  else if p = 1 then .ok (matVec E.rows q)
  else .ok (matVec E.rows (expP q p))

/-- `PolynomialOperator(p).datablock(states)`, states as a list of columns of length `r`:
_polynomial_operator.py:89-119 (`khatri_rao` applies `kron` to corresponding columns). -/
def polyDatablock [MulZeroOneClass K] (p r : Nat) (states : List (List K)) : List (List K) :=
  if p = 0 then states.map fun _ => [1]
  else if r = 0 then states.map fun _ => []
  else states.map fun q => expP q p

end Opinf
