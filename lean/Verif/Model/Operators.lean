import Verif.Model.Kron

/-!
# All nonparametric operators: data blocks, `apply`, `jacobian`, Galerkin projection

Models `/repo/src/opinf/operators/_nonparametric.py` and the shared parts of
`/repo/src/opinf/operators/_base.py`. Arguments of `apply` may be scalars, vectors or
matrices in the code; `Arg` keeps this distinction because the code branches on `np.ndim`.
-/

namespace Opinf

open List

variable {K : Type*}

/-- The operator classes of `_nonparametric.py`. -/
inductive OpKind
  | const | lin | kron (k : Kind) | inp | stateInp
  deriving DecidableEq, Repr

/-- An argument or result array: 0-, 1- or 2-dimensional. A 2-dimensional array is stored as its
number of rows and the list of its columns (snapshots). -/
inductive Arg (K : Type*)
  | scalar (x : K)
  | vec (xs : List K)
  | mat (n : Nat) (cols : List (List K))
  deriving DecidableEq, Repr

/-- `operator_dimension(r, m)`: _nonparametric.py:188 (constant), 368 (linear), 606, 1098, 1580
(Kronecker), 1991 (input), 2212 (state-input). -/
def OpKind.dim : OpKind → Nat → Nat → Nat
  | .const, _, _ => 1
  | .lin, r, _ => r
  | .kron k, r, _ => k.dim r
  | .inp, _, m => m
  | .stateInp, r, m => r * m

/-- One column of `datablock(states, inputs)` for the snapshot `q` and the input `u`:
_nonparametric.py:175 (ones), 355 (states), 592/1084/1566 (`ckron`), 1978 (inputs),
2199 (`khatri_rao(inputs, states)`, whose columns are `kron(u, q)`). -/
def OpKind.dataCol [CommSemiring K] : OpKind → List K → List K → List K
  | .const, _, _ => [1]
  | .lin, q, _ => q
  | .kron k, q, _ => k.ckron q
  | .inp, _, u => u
  | .stateInp, q, u => Opinf.kron u q

/-- `datablock(states, inputs)`, snapshots and inputs given by columns (list of columns). -/
def OpKind.datablock [CommSemiring K] (o : OpKind) (states inputs : List (List K)) :
    List (List K) := zipWith o.dataCol states inputs

/-- `entries @ x` with numpy's shape rules. -/
def matArg [Semiring K] (E : Mat K) : Arg K → Except Err (Arg K)
  | .scalar _ => .error .value
  | .vec xs => if xs.length = E.ncols then .ok (.vec (matVec E.rows xs)) else .error .value
  | .mat n cols => if n = E.ncols then .ok (.mat E.nrows (cols.map (matVec E.rows)))
      else .error .value

/-- Elementwise map over an array (`e * x ** p` with a scalar `e`). -/
def Arg.emap (f : K → K) : Arg K → Arg K
  | .scalar x => .scalar (f x)
  | .vec xs => .vec (xs.map f)
  | .mat n cols => .mat n (cols.map (·.map f))

/-- Entry `[0, 0]` of a two-dimensional array (`[0]` of the constant vector). -/
def Mat.e00 [Zero K] (E : Mat K) : K := (E.rows.getD 0 []).getD 0 0

/-- Column 0 of the entries. -/
def Mat.col0 [Zero K] (E : Mat K) : List K := E.rows.map fun row => row.getD 0 0

/-- `ConstantOperator.apply(state)`: _nonparametric.py:112-120 (the `(r,)` vector of entries is an
`r x 1` matrix here; `np.full_like` is modelled without its dtype truncation for integer states). -/
def applyConst [CommSemiring K] (E : Mat K) : Arg K → Arg K
  | .scalar x => if E.nrows = 1 then .scalar E.e00 else (fun _ => .vec E.col0) x
  | .vec xs => if E.nrows = 1 then .vec (xs.map fun _ => E.e00) else .vec E.col0
  | .mat n cols => if E.nrows = 1 then .mat n (cols.map (·.map fun _ => E.e00))
      else .mat E.nrows (cols.map fun _ => E.col0)

/-- `LinearOperator.apply(state)`: _nonparametric.py:279-281. -/
def applyLin [CommSemiring K] (E : Mat K) (s : Arg K) : Except Err (Arg K) :=
  if E.nrows = 1 then .ok (s.emap (E.e00 * ·)) else matArg E s

/-- `QuadraticOperator.apply(state)` etc.: _nonparametric.py:493-495, 978-980, 1453-1455. Indexing a
scalar raises `TypeError`, a too short state raises `IndexError`. -/
def applyKron [CommSemiring K] (k : Kind) (E : Mat K) (s : Arg K) : Except Err (Arg K) :=
  if E.nrows = 1 then .ok (s.emap fun x => E.e00 * x ^ k.deg)
  else match s with
    | .scalar _ => .error .type
    | .vec q => if q.length < E.nrows then .error .index
        else .ok (.vec (matVec E.rows
          ((k.indices E.nrows).map fun t => (t.map fun i => q.getD i 0).prod)))
    | .mat n cols => if n < E.nrows then .error .index
        else .ok (.mat E.nrows (cols.map fun q => matVec E.rows
          ((k.indices E.nrows).map fun t => (t.map fun i => q.getD i 0).prod)))

/-- `InputOperator.apply(state, input_)`: _nonparametric.py:1917-1923. -/
def applyInp [CommSemiring K] (E : Mat K) (u : Arg K) : Except Err (Arg K) :=
  match u with
  | .mat .. => matArg E u
  | .scalar x =>
    if E.ncols = 1 then
      if E.nrows = 1 then .ok (.scalar (E.e00 * x)) else .ok (.vec (E.col0.map (· * x)))
    else matArg E u
  | .vec xs =>
    if E.ncols = 1 then
      if E.nrows = 1 then .ok (.vec (xs.map (E.e00 * ·)))
      else if xs.length > 1 then .ok (.mat E.nrows (xs.map fun x => E.col0.map (· * x)))
      else match xs with
        | [x] => .ok (.vec (E.col0.map (· * x)))
        | _ => .error .value
    else matArg E u

/-- Broadcasted product of two arrays of shape `()`, `(k,)` or `(1, k)` (used for `r = m = 1`);
other shape combinations raise `ValueError` here. -/
def bmul [Mul K] (f : K → K → K) : Arg K → Arg K → Except Err (Arg K)
  | .scalar x, b => .ok (b.emap (f x))
  | a, .scalar y => .ok (a.emap (f · y))
  | .vec xs, .vec ys => if xs.length = ys.length then .ok (.vec (zipWith f xs ys)) else .error .value
  | .vec xs, .mat n cols => if xs.length = cols.length then
      .ok (.mat n (zipWith (fun x c => c.map (f x)) xs cols)) else .error .value
  | .mat n cols, .vec ys => if cols.length = ys.length then
      .ok (.mat n (zipWith (fun c y => c.map (f · y)) cols ys)) else .error .value
  | .mat n cols, .mat n' cols' => if cols.length = cols'.length ∧ n = n' then
      .ok (.mat n (zipWith (zipWith f) cols cols')) else .error .value

/-- `np.atleast_2d`, returning the columns. A vector becomes a single row. -/
def atleast2d : Arg K → Nat × List (List K)
  | .scalar x => (1, [[x]])
  | .vec xs => (1, xs.map ([·]))
  | .mat n cols => (n, cols)

/-- A scalar or vector as a vector (what `np.kron` uses for its zero- or one-dimensional arguments). -/
def Arg.toVec : Arg K → List K
  | .scalar x => [x]
  | .vec xs => xs
  | .mat _ cols => cols.flatten

/-- `StateInputOperator.apply(state, input_)`: _nonparametric.py:2094-2107. -/
def applyStateInp [CommSemiring K] (E : Mat K) (s u : Arg K) : Except Err (Arg K) :=
  let multi : Bool := (match s with
      | .mat .. => true
      | .vec xs => E.nrows = 1 && decide (xs.length > 1)
      | .scalar _ => false) ||
    (match u with
      | .mat .. => true
      | .vec xs => E.ncols = 1 && decide (xs.length > 1)
      | .scalar _ => false)
  if E.ncols = 1 then
    bmul (fun x y => E.e00 * x * y) u s
  else if !multi then
    let z := kron u.toVec s.toVec
    if z.length = E.ncols then .ok (.vec (matVec E.rows z)) else .error .value
  else
    let Q := atleast2d s
    let U := atleast2d u
    if Q.2.length ≠ U.2.length ∨ U.1 * Q.1 ≠ E.ncols then .error .value
    else .ok (.mat E.nrows (zipWith (fun a b => matVec E.rows (kron a b)) U.2 Q.2))

/-- `op.apply(state, input_)` of every operator class with calibrated entries. -/
def OpKind.apply [CommSemiring K] (o : OpKind) (E : Mat K) (s u : Arg K) : Except Err (Arg K) :=
  match o with
  | .const => .ok (applyConst E s)
  | .lin => applyLin E s
  | .kron k => applyKron k E s
  | .inp => applyInp E u
  | .stateInp => applyStateInp E s u

/-- `set_entries` shape checks for two-dimensional entries: _nonparametric.py:88-92 (constant: one
dimension must be 1, then ravel), 253-258, `KronOp.setEntries`, 1895-1896, 2069-2073. Returns the
stored entries. -/
def OpKind.setEntries [AddMonoid K] (o : OpKind) (E : Mat K) : Except Err (Mat K) :=
  match o with
  | .const => if E.ncols = 1 then .ok E
      else if E.nrows = 1 then .ok ⟨E.ncols, 1, (E.rows.getD 0 []).map ([·])⟩
      else .error .value
  | .lin => if E.nrows = E.ncols then .ok E else .error .value
  | .kron k => do
      let op ← (KronOp.empty k).setEntries E
      match op.entries with
      | some C => return C
      | none => throw .value
  | .inp => .ok E
  | .stateInp => if E.ncols = E.nrows * (E.ncols / E.nrows) then .ok E else .error .value

/-- `np.split(entries, m, axis=1)` of one row: `m` consecutive chunks of length `r`. -/
def chunks (r m : Nat) (row : List K) : List (List K) :=
  (range m).map fun i => (row.drop (i * r)).take r

/-- `jacobian(state, input_)` for a single state and input (as vectors); a class that does not
override `jacobian` returns `0` (_base.py:665), here the zero matrix. Linear: _nonparametric.py:300;
Kronecker: `KronOp.jacobian` of a fresh operator; state-input: :2128-2136. -/
def OpKind.jacobian [Field K] (o : OpKind) (E : Mat K) (q u : List K) :
    Except Err (List (List K)) :=
  match o with
  | .const | .inp => .ok (replicate E.nrows (replicate E.nrows 0))
  | .lin => .ok E.rows
  | .kron k => (KronOp.jacobian 0 ⟨k, some E, none⟩ q).1
  | .stateInp =>
    let m := E.ncols / E.nrows
    if u.length ≠ m then .error .value
    else .ok (E.rows.map fun row =>
      (zipWith vsmul u (chunks E.nrows m row)).foldl vadd (replicate E.nrows 0))

/-! ### Galerkin projection -/

/-- `h @ M` for a row vector `h` and a matrix given by rows, with `c` columns. -/
def vecMat [Semiring K] (c : Nat) (h : List K) (M : List (List K)) : List K :=
  (zipWith vsmul h M).foldl vadd (replicate c 0)

/-- `A @ B` for matrices given by rows; `B` has `c` columns. -/
def matMul [Semiring K] (c : Nat) (A B : List (List K)) : List (List K) :=
  A.map fun a => vecMat c a B

/-- `np.kron(A, B)` for matrices given by rows. -/
def matKron [Mul K] (A B : List (List K)) : List (List K) :=
  A.flatMap fun a => B.map fun b => kron a b

/-- Transpose of a matrix with `c` columns given by rows. -/
def transpose [Zero K] (c : Nat) (A : List (List K)) : List (List K) :=
  (range c).map fun j => A.map fun a => a.getD j 0

/-- `np.eye(m)` by rows. -/
def eye [Zero K] [One K] (m : Nat) : List (List K) :=
  (range m).map fun i => (range m).map fun j => if i = j then 1 else 0

/-- The function `func(entries, V)` each class passes to `_galerkin`; `V` is `n x r` by rows:
_nonparametric.py:139 (constant), 319, 538-541, 1028-1031, 1504-1509, 1942 (input), 2156-2161.
Returns number of columns and rows. -/
def OpKind.pg [Field K] (o : OpKind) (E : Mat K) (r : Nat) (V : List (List K)) :
    Except Err (Mat K) :=
  match o with
  | .const => .ok E
  | .inp => .ok E
  | .lin => .ok ⟨E.nrows, r, matMul r E.rows V⟩
  | .kron k => do
    let X ← k.expand 0 E
    let VV := match k with
      | .quad => matKron V V
      | .cubic => matKron V (matKron V V)
      | .quartic => matKron V (matKron V (matKron V V))
    return ⟨E.nrows, r ^ k.deg, matMul (r ^ k.deg) X.rows VV⟩
  | .stateInp =>
    let m := E.ncols / E.nrows
    .ok ⟨E.nrows, m * r, matMul (m * r) E.rows (matKron (eye m) V)⟩

/-- `_galerkin(Vr, Wr, func)`: _base.py:697-711. `solve` stands for `scipy.linalg.solve(WᵀV, ·)`
(external; it raises `LinAlgError` for singular matrices). The test `np.allclose(WᵀV, I)` is
modelled as exact equality. `V`, `W` are given by rows; `r` is the number of columns of `W` and
`rV` that of `V`. -/
def OpKind.galerkin [Field K] [DecidableEq K] (solve : List (List K) → Mat K → Except Err (Mat K))
    (o : OpKind) (E : Mat K) (rV r : Nat) (V W : List (List K)) : Except Err (Mat K) :=
  if E.nrows ≠ W.length then .error .dimensionality
  else if rV ≠ r then .error .dimensionality
  else do
    let P ← o.pg E r V
    let X : Mat K := ⟨r, P.ncols, matMul P.ncols (transpose r W) P.rows⟩
    let G := matMul r (transpose r W) V
    let Y ← if G = eye r then Except.ok X else solve G X
    o.setEntries Y

end Opinf
