import Verif.Model.Transform
import Verif.Model.TransformIO
import Verif.Model.Operators
import Mathlib.Data.List.Sort

/-!
# Bases (`opinf.basis`)

Sources: /repo/src/opinf/basis/_base.py, _linear.py, _pod.py, _multi.py.

Simplifications that hold throughout this file:
* Numbers are elements of an ordered field, so there is no rounding, and `np.allclose` in the orthogonality
  check is equality. A division by zero reports `Err.nonfinite` and leaves the basis as it was.
* A basis matrix is given by its columns (the basis vectors), together with the length of a column.
* Weights are a vector (diagonal weights, which the code keeps as a sparse diagonal matrix) or a dense matrix.
* Plotting is not modelled.
-/

namespace Opinf

open List

variable {K : Type}

/-! ### Matrices by columns -/

/-- A matrix with columns of length `n`. -/
structure Cols (K : Type) where
  n : Nat
  cols : List (List K)
  deriving DecidableEq, Repr

/-- Every column has the declared length (true of every numpy array). -/
def Cols.WF (V : Cols K) : Prop := ∀ c ∈ V.cols, c.length = V.n

/-- `V[:, :r]`; a negative `r` counts from the end. -/
def Cols.upTo (V : Cols K) (r : Int) : Cols K :=
  ⟨V.n, V.cols.take (if r < 0 then (r + V.cols.length).toNat else r.toNat)⟩

/-- `l[:r]`; a negative `r` counts from the end. -/
def takeInt (l : List K) (r : Int) : List K := l.take (if r < 0 then (r + l.length).toNat else r.toNat)

/-- `A @ Y` for a matrix with `m` columns given by its rows; ValueError if the shapes do not match. -/
def matSnap [Semiring K] (A : List (List K)) (m : Nat) (Y : Snap K) : Except Err (Snap K) :=
  if Y.len ≠ m then .error .value
  else match Y with
    | .vec xs => .ok (.vec (matVec A xs))
    | .mat k rows => .ok (.mat k (matMul k A rows))

/-- Positions selected by `A[locs]` along an axis of length `n`. -/
def locRows (n : Nat) : Locs → Except Err (List Nat)
  | .idx is => is.mapM (pyIndex n)
  | .slice a b c => do (← sliceIdx n a b c).mapM (pyIndex n)

/-! ### LinearBasis -/

/-- Weights of the inner product. -/
inductive Weights (K : Type)
  | diag (w : List K)
  | full (W : Mat K)
  deriving DecidableEq, Repr

/-- The `weights` argument of a basis: nothing, an array with one or two dimensions, another array. -/
inductive WArg (K : Type)
  | none
  | one (w : List K)
  | two (W : Mat K)
  | other
  deriving DecidableEq, Repr

/-- `weights @ state`: /repo/src/opinf/basis/_linear.py:158-159. -/
def applyWeights [Semiring K] (W : Option (Weights K)) (Y : Snap K) : Except Err (Snap K) :=
  match W with
  | .none => .ok Y
  | .some (.diag w) => if Y.len = w.length then .ok (Y.rowMap fun i x => w.getD i 0 * x) else .error .value
  | .some (.full A) => matSnap A.rows A.ncols Y

/-- A `LinearBasis`: name, dimensions, entries and weights (/repo/src/opinf/basis/_base.py:26-30,
_linear.py:68-103). The reduced dimension may be any integer before the entries are set. -/
structure LinB (K : Type) where
  name : Option String
  n : Option Nat
  r : Option Int
  entries : Option (Cols K)
  weights : Option (Weights K)
  deriving DecidableEq, Repr

/-- Weights times one column. -/
def weightCol [Semiring K] (W : Option (Weights K)) (c : List K) : Except Err (List K) := do
  match ← applyWeights W (.vec c) with
  | .vec xs => .ok xs
  | .mat _ _ => .error .value

/-- `V.T @ W @ V`: _linear.py:98-99. -/
def basisGram [Semiring K] (V : Cols K) (W : Option (Weights K)) : Except Err (List (List K)) := do
  let WV ← V.cols.mapM (weightCol W)
  if WV.all fun c => c.length == V.n then .ok (V.cols.map fun a => WV.map fun b => dot a b) else .error .value

/-- Conversion of the `weights` argument: _linear.py:88-94. -/
def WArg.toWeights : WArg K → Except Err (Option (Weights K))
  | .none => .ok .none
  | .one w => .ok (.some (.diag w))
  | .two W => .ok (.some (.full W))
  | .other => .error .value

/-- The check at the end of the constructor; the result says whether there is a warning: _linear.py:96-102. -/
def orthWarn [Semiring K] [DecidableEq K] (V : Cols K) (W : Option (Weights K)) : Except Err Bool :=
  (basisGram V W).map fun G => !(G == eye V.cols.length)

/-- `LinearBasis.__init__` with entries: _linear.py:68-103. Returns the object, and the outcome with whether
there is a warning. -/
def LinB.init [Semiring K] [DecidableEq K] (V : Cols K) (W : Option (Weights K)) (check : Bool)
    (name : Option String) : LinB K × Except Err Bool :=
  (⟨name, some V.n, some V.cols.length, some V, W⟩, if check then orthWarn V W else .ok false)

/-- `LinearBasis(entries, weights, check_orthogonality, name)`: a raising constructor gives no object. -/
def LinB.make [Semiring K] [DecidableEq K] (V : Cols K) (W : WArg K) (check : Bool) (name : Option String) :
    Except Err (LinB K × Bool) := do
  let W ← W.toWeights
  let b := LinB.init V W check name
  return (b.1, ← b.2)

/-- `requires_entries`: AttributeError without entries (/repo/src/opinf/basis/_linear.py:19-22 with
/repo/src/opinf/utils/_requires.py:17-45). -/
def LinB.need (b : LinB K) : Except Err (Cols K) :=
  match b.entries with
  | some V => .ok V
  | none => .error .attribute

/-- `compress`: _linear.py:137-161. -/
def LinB.compress [Semiring K] (b : LinB K) (Y : Snap K) : Except Err (Snap K) := do
  let V ← b.need
  matSnap V.cols V.n (← applyWeights b.weights Y)

/-- Rows of the basis matrix, all of them or those at `locs`: _linear.py:188. -/
def LinB.rowsAt [Zero K] (V : Cols K) (locs : Option Locs) : Except Err (List (List K)) :=
  match locs with
  | none => .ok (transpose V.n V.cols)
  | some l => (locRows V.n l).map fun is => is.map fun i => V.cols.map fun c => c.getD i 0

/-- `decompress`: _linear.py:163-189. -/
def LinB.decompress [Semiring K] (b : LinB K) (Z : Snap K) (locs : Option Locs) : Except Err (Snap K) := do
  let V ← b.need
  matSnap (← LinB.rowsAt V locs) V.cols.length Z

/-! ### The interface of a basis -/

/-- What the code uses of a basis object: dimensions, name, `fit`, `compress`, `decompress`
(/repo/src/opinf/basis/_base.py). -/
structure BasI (K S : Type) where
  n : S → Option Nat
  setN : S → Nat → S
  r : S → Option Nat
  name : S → Option String
  setName : S → Option String → S
  fit : S → Snap K → S × Except Err Unit
  compress : S → Snap K → Except Err (Snap K)
  decompress : S → Snap K → Option Locs → Except Err (Snap K)

/-- `project`: /repo/src/opinf/basis/_base.py:156-181. -/
def BasI.project {S : Type} (I : BasI K S) (s : S) (Y : Snap K) : Except Err (Snap K) := do
  I.decompress s (← I.compress s Y) none

/-- `fit_compress`: _base.py:137-152. -/
def BasI.fitCompress {S : Type} (I : BasI K S) (s : S) (Y : Snap K) : S × Except Err (Snap K) :=
  match I.fit s Y with
  | (s', .error e) => (s', .error e)
  | (s', .ok ()) => (s', I.compress s' Y)

/-- A `LinearBasis` as a basis; `fit` does nothing (_linear.py:132-134), and the dimension of the full state
may be overwritten from outside (`BasisTemplate.full_state_dimension.fset`). -/
def linI [Semiring K] : BasI K (LinB K) where
  n b := b.n
  setN b n := { b with n := some n }
  r b := b.r.map Int.toNat
  name b := b.name
  setName b n := { b with name := n }
  fit b _ := (b, .ok ())
  compress := LinB.compress
  decompress := LinB.decompress

/-- Values written for the name: only if it is not empty (`if self.name:`), _linear.py:263-265. -/
def nameVals (name : Option String) : List (String × H5Val K) :=
  match name with
  | none => []
  | some s => if s = "" then [] else [("meta.name", .str s)]

/-- Values written for weights: _linear.py:267-271, _pod.py:981-984. -/
def weightVals (W : Option (Weights K)) : List (String × H5Val K) :=
  match W with
  | none => []
  | some (.diag w) => [("weights", .arr w)]
  | some (.full W) => [("weights", .mat W)]

/-- A matrix by columns as a data set (stored by rows). -/
def Cols.toMat [Zero K] (V : Cols K) : Mat K := ⟨V.n, V.cols.length, transpose V.n V.cols⟩

/-- A data set as a matrix by columns. -/
def Mat.toCols [Zero K] (A : Mat K) : Cols K := ⟨A.nrows, transpose A.ncols A.rows⟩

/-- `LinearBasis.save`: _linear.py:251-271. Saving a basis without entries raises TypeError. -/
def LinB.save [Zero K] (b : LinB K) : Saved K :=
  match b.entries with
  | none => (.node (nameVals b.name) [], .error .type)
  | some V => (.node (nameVals b.name ++ [("entries", .mat V.toMat)] ++ weightVals b.weights) [], .ok ())

/-- Reading the weights, if present: _linear.py:291, _pod.py:1018-1019. -/
def readWeights (h : H5 K) : Except Err (WArg K) :=
  match h.get? "weights" with
  | none => .ok .none
  | some (.arr w) => .ok (.one w)
  | some (.mat W) => .ok (.two W)
  | some _ => .error .key

/-- Reading the name, if present: _linear.py:287-289, _pod.py:1010-1011. -/
def readNameOpt (h : H5 K) : Option String :=
  match h.get? "meta.name" with
  | some (.str s) => some s
  | _ => none

/-- `LinearBasis.load`: _linear.py:273-292. -/
def LinB.load [Semiring K] [DecidableEq K] (h : H5 K) : Except Err (LinB K) := asLoadError do
  let A ← h.mat "entries"
  let W ← readWeights h
  let b ← LinB.make A.toCols W true (readNameOpt h)
  return b.1

/-! ### PODBasis -/

/-- A dimension selection criterion: /repo/src/opinf/basis/_pod.py:482-519. -/
inductive Crit (K : Type)
  | num (v : Int)
  | svdval (v : K)
  | cumE (v : K)
  | resE (v : K)
  | projErr (v : K)
  deriving DecidableEq, Repr

/-- The keyword arguments that select the dimension. -/
structure CritArgs (K : Type) where
  num : Option Int
  svdval : Option K
  cumE : Option K
  resE : Option K
  projErr : Option K
  deriving DecidableEq, Repr

/-- The provided criteria in the order of the code: _pod.py:490-496. -/
def CritArgs.provided (a : CritArgs K) : List (Crit K) :=
  [a.num.map Crit.num, a.svdval.map Crit.svdval, a.cumE.map Crit.cumE, a.resE.map Crit.resE,
    a.projErr.map Crit.projErr].filterMap id

/-- `_set_dimension_selection_criterion`: the first provided criterion is used (with a warning if there are
several), none at all raises ValueError: _pod.py:497-519. -/
def CritArgs.pick (a : CritArgs K) : Except Err (Crit K) :=
  match a.provided with
  | [] => .error .value
  | c :: _ => .ok c

/-- Singular value data: leading left vectors, all normalized singular values, right vectors if available. -/
structure SvdData (K : Type) where
  left : Cols K
  vals : List K
  right : Option (Cols K)
  deriving DecidableEq, Repr

/-- A `PODBasis`: the `LinearBasis` attributes and _pod.py:263-286. -/
structure Pod (K : Type) where
  lin : LinB K
  crit : Crit K
  maxWanted : Option Nat
  mos : Bool
  randomized : Bool
  estimated : Bool
  svd : Option (SvdData K)
  cum : Option K
  res : Option K
  deriving DecidableEq, Repr

/-- The libraries used by a POD basis: square roots, matrix square root, the Cholesky solve with that square
root, and the singular value decomposition (or the method of snapshots, which also takes the weights), which
returns left vectors, singular values and right vectors. It may fail. -/
structure PodExt (K : Type) where
  sqrt : K → K
  sqrtm : Mat K → Mat K
  choSolve : Mat K → List K → List K
  engine : Option (Weights K) → Snap K → Except Err (Cols K × List K × Cols K)

section
variable [Field K] [LinearOrder K]

/-- Sum of the squares of the singular values. -/
def energySum (vals : List K) : K := (vals.map (· ^ 2)).sum

/-- `np.cumsum(svdvals**2) / np.sum(svdvals**2)`: _pod.py:566. -/
def energies (vals : List K) : List K :=
  (range vals.length).map fun i => energySum (vals.take (i + 1)) / energySum vals

/-- `np.searchsorted(a, v)` for a nondecreasing list: the number of smaller entries. -/
def searchSorted (a : List K) (v : K) : Nat := (a.filter fun x => x < v).length

/-- `np.count_nonzero` of a condition. -/
def countIf (p : K → Bool) (a : List K) : Nat := (a.filter p).length

/-- The dimension a criterion selects, before it is limited by the number of stored vectors:
`_set_dimension_from_criterion`, _pod.py:561-597. -/
def Crit.dim (sqrt : K → K) (c : Crit K) (vals : List K) : Int :=
  match c with
  | .num v => v
  | .svdval v => countIf (fun s => decide (v ≤ s)) vals
  | .cumE v => searchSorted (energies vals) v + 1
  | .resE v => countIf (fun e => decide (v ≤ 1 - e)) (energies vals) + 1
  | .projErr v => countIf (fun e => decide (v ≤ sqrt (1 - e))) (energies vals) + 1

/-- `reduced_state_dimension` (setter): _pod.py:521-559. -/
def Pod.setR (s : Pod K) (r : Int) : Pod K × Except Err Unit :=
  match s.svd with
  | none => ({ s with crit := .num r, lin := { s.lin with r := some r } }, .ok ())
  | some d =>
    let r : Int := if (d.left.cols.length : Int) < r then (d.left.cols.length : Int) else r
    let cum := energySum (takeInt d.vals r) / energySum d.vals
    let b := LinB.init (d.left.upTo r) s.lin.weights true s.lin.name
    ({ s with lin := b.1, cum := some cum, res := some (1 - cum) }, b.2.map fun _ => ())

/-- `_set_dimension_from_criterion`: _pod.py:561-597 (only called when there are singular values). -/
def Pod.setFromCrit (sqrt : K → K) (s : Pod K) : Pod K × Except Err Unit :=
  match s.svd with
  | none => (s, .error .type)
  | some d => s.setR (s.crit.dim sqrt d.vals)

/-- `set_dimension`: _pod.py:599-646. -/
def Pod.setDimension (sqrt : K → K) (s : Pod K) (a : CritArgs K) : Pod K × Except Err Unit :=
  match a.pick with
  | .error e => (s, .error e)
  | .ok c =>
    let s := { s with crit := c }
    if s.svd.isNone then (s, .ok ()) else s.setFromCrit sqrt

/-- `PODBasis.__init__`: _pod.py:245-305. Weights with more than two dimensions fail later in the code and are
refused here. -/
def Pod.make (a : CritArgs K) (maxWanted : Option Int) (mos randomized : Bool) (W : WArg K)
    (name : Option String) : Except Err (Pod K) := do
  let c ← a.pick
  if maxWanted.any fun m => m ≤ 0 then throw .value
  let W ← W.toWeights
  return ⟨⟨name, none, none, none, W⟩, c, maxWanted.map Int.toNat, mos, randomized, false, none, none, none⟩

/-- `_store_svd`: the singular values are sorted and divided by the largest one: _pod.py:649-656. -/
def normalizeVals (vals : List K) : Except Err (List K) :=
  match vals.insertionSort (· ≥ ·) with
  | [] => .error .index
  | s :: rest => if s = 0 then .error .nonfinite else .ok ((s :: rest).map (· / s))

/-- `_store_svd` followed by `_set_dimension_from_criterion`: _pod.py:361-362, 723-728. -/
def Pod.storeSvd (sqrt : K → K) (s : Pod K) (left : Cols K) (vals : List K) (right : Option (Cols K)) :
    Pod K × Except Err Unit :=
  match normalizeVals vals with
  | .error e => (s, .error e)
  | .ok vals => ({ s with svd := some ⟨left, vals, right⟩ } : Pod K).setFromCrit sqrt

/-- `PODBasis.from_svd`: _pod.py:307-368. -/
def Pod.fromSvd (sqrt : K → K) (left : Cols K) (vals : List K) (right : Option (Cols K)) (a : CritArgs K)
    (maxWanted : Option Int) (W : WArg K) (name : Option String) : Except Err (Pod K) := do
  let a := if a.provided.isEmpty then { a with num := some left.cols.length } else a
  let s ← Pod.make a maxWanted false false W name
  let r := s.storeSvd sqrt left vals right
  r.2
  return r.1

/-- The number of vectors kept by `fit`: _pod.py:668-680. -/
def Pod.keep (s : Pod K) (n k : Nat) : Nat :=
  match s.maxWanted with
  | none => min n k
  | some m => min m (min n k)

/-- The states times the square root of the weights (not for the method of snapshots): _pod.py:697-706. -/
def Pod.weighted (ext : PodExt K) (s : Pod K) (Y : Snap K) : Except Err (Snap K) :=
  if s.mos then .ok Y
  else match s.lin.weights with
    | none => .ok Y
    | some (.diag w) =>
      if Y.len = w.length then .ok (Y.rowMap fun i x => ext.sqrt (w.getD i 0) * x) else .error .dimensionality
    | some (.full W) =>
      if Y.len = W.nrows then matSnap (ext.sqrtm W).rows (ext.sqrtm W).ncols Y else .error .dimensionality

/-- The inverse of the square root of the weights times the left vectors: _pod.py:711-719. -/
def Pod.unweighted (ext : PodExt K) (s : Pod K) (V : Cols K) : Except Err (Cols K) :=
  if s.mos then .ok V
  else match s.lin.weights with
    | none => .ok V
    | some (.diag w) =>
      if (0 : K) ∈ w.map ext.sqrt then .error .nonfinite
      else .ok ⟨V.n, V.cols.map fun c => c.mapIdx fun i x => 1 / ext.sqrt (w.getD i 0) * x⟩
    | some (.full W) => .ok ⟨V.n, V.cols.map (ext.choSolve (ext.sqrtm W))⟩

/-- Everything in `fit` before the results are stored: the left vectors, all singular values and the right
vectors; _pod.py:666-719. Three-dimensional states are not modelled. -/
def Pod.decompose (ext : PodExt K) (s : Pod K) (Y : Snap K) : Except Err (Cols K × List K × Cols K) :=
  match Y with
  | .vec _ => .error .index
  | .mat k rows => do
    let Y ← s.weighted ext (.mat k rows)
    let d ← ext.engine (if s.mos then s.lin.weights else none) Y
    let V ← s.unweighted ext d.1
    return (⟨V.n, V.cols.take (s.keep rows.length k)⟩, d.2.1, ⟨d.2.2.n, d.2.2.cols.take (s.keep rows.length k)⟩)

/-- `fit`: _pod.py:658-730. -/
def Pod.fit (ext : PodExt K) (s : Pod K) (Y : Snap K) : Pod K × Except Err Unit :=
  match s.decompose ext Y with
  | .error e => (s, .error e)
  | .ok (V, vals, W) =>
    let est := match Y with
      | .mat k rows => s.randomized && decide (s.keep rows.length k < min rows.length k)
      | .vec _ => false
    ({ s with estimated := est } : Pod K).storeSvd ext.sqrt V vals (some W)

/-- A `PODBasis` as a basis. -/
def podI (ext : PodExt K) : BasI K (Pod K) where
  n s := s.lin.n
  setN s n := { s with lin := { s.lin with n := some n } }
  r s := s.lin.r.map Int.toNat
  name s := s.lin.name
  setName s n := { s with lin := { s.lin with name := n } }
  fit := Pod.fit ext
  compress s := s.lin.compress
  decompress s := s.lin.decompress

/-- The name of a criterion and its value as saved: _pod.py:972-973. -/
def Crit.label : Crit K → String
  | .num _ => "num_vectors"
  | .svdval _ => "svdval_threshold"
  | .cumE _ => "cumulative_energy"
  | .resE _ => "residual_energy"
  | .projErr _ => "projection_error"

/-- The value of a criterion as a data set with one number. A number of vectors is an integer and the reader
converts it back with `int`; it is represented exactly as an element of the field. -/
def Crit.val : Crit K → K
  | .num v => v
  | .svdval v => v
  | .cumE v => v
  | .resE v => v
  | .projErr v => v

/-- Singular value data as saved; right vectors that are not available raise TypeError after the other
arrays were written: _pod.py:986-989. -/
def SvdData.vals' (d : SvdData K) : List (String × H5Val K) × Except Err Unit :=
  let v := [("leftvecs", .mat d.left.toMat), ("svdvals", .arr d.vals)]
  match d.right with
  | none => (v, .error .type)
  | some W => (v ++ [("rightvecs", .mat W.toMat)], .ok ())

/-- `PODBasis.save`: _pod.py:956-989. -/
def Pod.save (s : Pod K) : Saved K :=
  let head := nameVals s.lin.name ++ [("meta.criterion_type", .str s.crit.label), ("criterion_value", .arr [s.crit.val])]
    ++ (match s.maxWanted with
      | none => []
      | some m => [("max_vectors", .nat m)])
    ++ weightVals s.lin.weights
  match s.svd with
  | none => (.node head [], .ok ())
  | some d => (.node (head ++ d.vals'.1) [], d.vals'.2)

/-- The keyword argument for a saved criterion (`toInt` is Python's `int`): _pod.py:1013. -/
def critOf (toInt : K → Int) (label : String) (v : K) : Except Err (CritArgs K) :=
  if label = "num_vectors" then .ok ⟨some (toInt v), none, none, none, none⟩
  else if label = "svdval_threshold" then .ok ⟨none, some v, none, none, none⟩
  else if label = "cumulative_energy" then .ok ⟨none, none, some v, none, none⟩
  else if label = "residual_energy" then .ok ⟨none, none, none, some v, none⟩
  else if label = "projection_error" then .ok ⟨none, none, none, none, some v⟩
  else .error .type

/-- The first entry of a data set. -/
def H5.first (h : H5 K) (key : String) : Except Err K := do
  match ← h.arr key with
  | [] => .error .index
  | v :: _ => .ok v

/-- Reading `max_vectors`, if present: _pod.py:1015-1016. -/
def readMax (h : H5 K) : Except Err (Option Int) :=
  match h.get? "max_vectors" with
  | none => .ok none
  | some (.nat m) => .ok (some m)
  | some _ => .error .key

/-- The number of vectors read by `load`: _pod.py:1022-1023. -/
def readVectors (mv : Option Nat) (k : Nat) : Nat :=
  match mv with
  | none => k
  | some m => min m k

/-- The part of `PODBasis.load` for a basis with vectors: _pod.py:1021-1029. -/
def Pod.loadSvd (sqrt : K → K) (h : H5 K) (a : CritArgs K) (maxSaved : Option Int) (W : WArg K)
    (maxVectors : Option Nat) (A : Mat K) : Except Err (Pod K) := do
  let left := A.toCols
  let r := readVectors maxVectors left.cols.length
  let a := if maxVectors.isSome && a.num.isSome then { a with num := some (r : Int) } else a
  let vals ← h.arr "svdvals"
  let B ← h.mat "rightvecs"
  Pod.fromSvd sqrt ⟨left.n, left.cols.take r⟩ vals (some ⟨B.toCols.n, B.toCols.cols.take r⟩) a maxSaved W
    (readNameOpt h)

/-- `PODBasis.load(loadfile, max_vectors)`: _pod.py:992-1033. -/
def Pod.load (sqrt : K → K) (toInt : K → Int) (maxVectors : Option Nat) (h : H5 K) : Except Err (Pod K) :=
  asLoadError do
    let label ← h.str "meta.criterion_type"
    let v ← h.first "criterion_value"
    let a ← critOf toInt label v
    let maxSaved ← readMax h
    let W ← readWeights h
    match h.get? "leftvecs" with
    | some (.mat A) => Pod.loadSvd sqrt h a maxSaved W maxVectors A
    | _ => Pod.make a maxSaved false false W (readNameOpt h)

/-! ### The functions on singular values -/

/-- `svdval_decay(singular_values, threshold, plot=False)` for one nonzero threshold: _pod.py:1140-1147. -/
def svdvalDecay (vals : List K) (v : K) : Except Err Nat := do
  return countIf (fun s => decide (v < s)) (← normalizeVals vals)

/-- `cumulative_energy(singular_values, threshold, plot=False)` for one nonzero threshold: _pod.py:1248-1256. -/
def cumulativeEnergyRank (vals : List K) (v : K) : Except Err Nat :=
  let vals := vals.insertionSort (· ≥ ·)
  if energySum vals = 0 then .error .nonfinite else .ok (searchSorted (0 :: energies vals) v)

/-- `residual_energy(singular_values, threshold, plot=False, sqrt=...)` for one nonzero threshold:
_pod.py:1364-1374. -/
def residualEnergyRank (vals : List K) (v : K) (root : Option (K → K)) : Except Err Nat :=
  let vals := vals.insertionSort (· ≥ ·)
  if energySum vals = 0 then .error .nonfinite
  else
    let res := 1 :: (energies vals).map (1 - ·)
    .ok (countIf (fun e => decide (v < e)) (match root with
      | none => res
      | some f => res.map f))

end

/-! ### BasisMulti -/

/-- `tuple(...)` of sizes with their sum, `None` if one is unknown: /repo/src/opinf/basis/_multi.py:106-136. -/
def sizesSum {S : Type} (d : S → Option Nat) (bs : List S) : Option Nat := (bs.mapM d).map List.sum

/-- The bases after names were set for those without: _multi.py:73-94. -/
def basisNames {S : Type} (I : BasI K S) (bs : List S) : List S :=
  bs.mapIdx fun i b => if (I.name b).isNone then I.setName b (some s!"variable {i}") else b

/-- `BasisMulti.__init__`: _multi.py:57-65, 73-94. -/
def basisMultiMake {S : Type} (I : BasI K S) (bs : List S) (sizes : Option (List Nat)) : Except Err (List S) :=
  if bs.isEmpty then .error .value
  else match sizes with
    | none => .ok (basisNames I bs)
    | some ns =>
      if ns.length ≠ bs.length then .error .value
      else .ok (zipWith (fun b n => I.setN b n) (basisNames I bs) ns)

/-- `_check_shape_full`, `_check_shape_reduced`: _multi.py:176-193. -/
def basisCheck (d : Option Nat) (Y : Snap K) : Except Err Unit :=
  match d with
  | none => .error .attribute
  | some n => if Y.len = n then .ok () else .error .dimensionality

/-- `_check_is_reduced`: _multi.py:195-227. If exactly one of the dimensions is unknown, formatting the
message raises TypeError. -/
def checkIsReduced (n r : Option Nat) (Y : Snap K) : Except Err Bool :=
  if n = some Y.len then .ok false
  else if r = some Y.len then .ok true
  else match n, r with
    | none, none => .error .attribute
    | some _, some _ => .error .dimensionality
    | _, _ => .error .type

/-- `split`: _multi.py:229-259, 282-297. -/
def basisSplit {S : Type} (I : BasI K S) (bs : List S) (Y : Snap K) : Except Err (List (Snap K)) := do
  let red ← checkIsReduced (sizesSum I.n bs) (sizesSum I.r bs) Y
  return splitSizes (bs.map fun b => ((if red then I.r else I.n) b).getD 0) 0 Y

/-- `get_var`: _multi.py:261-280. -/
def basisGetVar {S : Type} (I : BasI K S) (bs : List S) (var : Int ⊕ String) (Y : Snap K) :
    Except Err (Snap K) := do
  let var ← varIndex (bs.filterMap I.name) var
  let red ← checkIsReduced (sizesSum I.n bs) (sizesSum I.r bs) Y
  let sizes := bs.map fun b => ((if red then I.r else I.n) b).getD 0
  let dimsum := (range (sizes.length + 1)).map fun i => (sizes.take i).sum
  let a ← pyIndex dimsum.length var
  let b ← pyIndex dimsum.length (var + 1)
  return Y.slice (dimsum.getD a 0) (dimsum.getD b 0)

/-- The loop of `fit` over the bases and their parts of the states. -/
def fitEach {S : Type} (I : BasI K S) : List S → List (Snap K) → List S × Except Err Unit
  | b :: bs, Y :: Ys => match I.fit b Y with
    | (b', .error e) => (b' :: bs, .error e)
    | (b', .ok ()) => let r := fitEach I bs Ys; (b' :: r.1, r.2)
  | bs, _ => (bs, .ok ())

/-- The sizes of the variables are set before the first fit: _multi.py:317-326. -/
def basisSizes {S : Type} (I : BasI K S) (bs : List S) (Y : Snap K) : Except Err (List S) :=
  match sizesSum I.n bs with
  | some _ => .ok bs
  | none => if Y.len % bs.length ≠ 0 then .error .dimensionality
    else .ok (bs.map fun b => I.setN b (Y.len / bs.length))

/-- `BasisMulti.fit`: _multi.py:300-333. -/
def basisMultiFit {S : Type} (I : BasI K S) (bs : List S) (Y : Snap K) : List S × Except Err Unit :=
  match basisSizes I bs Y with
  | .error e => (bs, .error e)
  | .ok bs => match (do basisCheck (sizesSum I.n bs) Y; basisSplit I bs Y : Except Err (List (Snap K))) with
    | .error e => (bs, .error e)
    | .ok parts => fitEach I bs parts

/-- `[f(b, Y) for b, Y in zip(bases, parts)]`. -/
def mapParts {S : Type} (f : S → Snap K → Except Err (Snap K)) (bs : List S) (Ys : List (Snap K)) :
    Except Err (List (Snap K)) := (zip bs Ys).mapM fun p => f p.1 p.2

/-- `BasisMulti.compress`: _multi.py:335-363. -/
def basisMultiCompress {S : Type} (I : BasI K S) (bs : List S) (Y : Snap K) : Except Err (Snap K) := do
  basisCheck (sizesSum I.n bs) Y
  Snap.concat (← mapParts I.compress bs (← basisSplit I bs Y))

/-- The check for `locs`: _multi.py:390-394. -/
def locsCheck {S : Type} (I : BasI K S) (bs : List S) (locs : Option Locs) : Except Err Unit :=
  if locs.isSome && decide (1 < (bs.map I.n).dedup.length) then .error .value else .ok ()

/-- `BasisMulti.decompress`: _multi.py:365-401. -/
def basisMultiDecompress {S : Type} (I : BasI K S) (bs : List S) (Z : Snap K) (locs : Option Locs) :
    Except Err (Snap K) := do
  basisCheck (sizesSum I.r bs) Z
  locsCheck I bs locs
  Snap.concat (← mapParts (fun b Z => I.decompress b Z locs) bs (← basisSplit I bs Z))

/-- `BasisMulti.load` with a list of classes, after `save` (which is that of `TransformerMulti`, `multiSave`):
_multi.py:467-514. -/
def basisMultiLoad {C S : Type} (I : BasI K S) (io : TfIO K C S) (cs : List C) (h : H5 K) :
    Except Err (List S) := asLoadError do
  let n ← h.nat "num_variables"
  if cs.length ≠ n then throw .value
  let bs ← loadEach io.load n cs h.subs
  basisMultiMake I bs none

end Opinf
