import Verif.Model.Verify
import Verif.Model.ModelIO

/-!
# `verify()` of operators

/repo/src/opinf/operators/_base.py:226-497 (`OperatorTemplate.verify`) and :822-891 (`OpInfOperator.verify`).

Simplifications: the random numbers are arguments (`OpDraw`); arithmetic is exact, in particular the steps of the
finite difference check are the powers of ten; the printed messages and the plot are left out. Whether the copy is the
same object is not modelled. Once the shape of `apply(q, u)` has been checked for the first state, a result of another
shape ends the call with ValueError (numpy would broadcast some of them), and likewise a Jacobian that is an array for
the first state and not for the second.
-/

namespace Opinf

open List

variable {K O : Type}

/-- What `jacobian()` returns: a number or a two-dimensional array. -/
inductive JacVal (K : Type)
  | num (x : K)
  | arr (J : Mat K)

/-- The methods of an operator class. `stateDim` is `none` if `state_dimension` is not an integer; `inputDim` is `none`
if the class does not derive from `InputMixin`. A method that raises NotImplementedError gives `notImplemented`.
Matrices are given by rows. -/
structure OperI (K O : Type) where
  stateDim : O → Option Int
  inputDim : O → Option (Option Int)
  apply : O → Arg K → Option (Arg K) → Except Err (Arg K)
  jacobian : O → List K → Option (List K) → Except Err (JacVal K)
  galerkin : O → Nat → List (List K) → Option (List (List K)) → Except Err O
  isOperator : O → Bool
  sameClass : O → O → Bool
  copy : O → Except Err O
  save : O → FS K → String → FS K × Except Err Unit
  load : O → FS K → String → Except Err O

/-- The random numbers of one call: states and inputs (columns), the point of the finite difference check, the bases
(rows), and the states of the four comparisons. -/
structure OpDraw (K : Type) where
  states : List (List K)
  controls : List (List K)
  point : List K
  trial : List (List K)
  test : List (List K)
  petrov : List (List K)
  galerkin : List (List K)
  copied : List (List K)
  loaded : List (List K)

/-- `not isinstance(n, int) or n <= 0` raises VerificationError: _base.py:265-282. -/
def positiveDim : Option Int → Except Err Nat
  | some n => if 0 < n then .ok n.toNat else .error .verification
  | none => .error .verification

/-- The dimensions: _base.py:264-284. -/
def OperI.dims (I : OperI K O) (o : O) : Except Err (Nat × Option Nat) := do
  let r ← positiveDim (I.stateDim o)
  match I.inputDim o with
  | none => return (r, none)
  | some d => return (r, some (← positiveDim d))

/-- `out.shape == (r,)`. -/
def Arg.isVector (r : Nat) : Arg K → Bool
  | .vec y => y.length == r
  | _ => false

/-- `out.shape == (r, k)`. -/
def Arg.isMatrix (r k : Nat) : Arg K → Bool
  | .mat n cols => n == r && cols.length == k
  | _ => false

/-- `u`: the first drawn input, or `None`: _base.py:288-292. -/
def OpDraw.input (d : OpDraw K) (m : Option Nat) : Option (List K) := m.map fun _ => d.controls.getD 0 []

/-- The checks of `apply()`: _base.py:287-322. -/
def OperI.verifyApply (I : OperI K O) (o : O) (d : OpDraw K) (k r : Nat) (m : Option Nat) : Except Err Unit := do
  let y ← I.apply o (.vec (d.states.getD 0 [])) ((d.input m).map .vec)
  insist (y.isVector r)
  let Y ← I.apply o (.mat r d.states) (m.map fun m => .mat m d.controls)
  insist (Y.isMatrix r k)

/-- `self.apply(q, u)` for a state vector, see the simplifications above. -/
def OperI.applyVec (I : OperI K O) (o : O) (r : Nat) (q : List K) (u : Option (List K)) : Except Err (List K) := do
  match ← I.apply o (.vec q) (u.map .vec) with
  | .vec y => if y.length = r then return y else throw .value
  | _ => throw .value

/-- `E[i]`, the unit vector. -/
def unitVec [Zero K] [One K] (n i : Nat) : List K := (range n).map fun j => if i = j then 1 else 0

/-- One column of `_gradient(f, x, h)`: _base.py:330. -/
def OperI.diffQuot [Field K] (I : OperI K O) (o : O) (r : Nat) (u : Option (List K)) (x : List K) (h : K) (i : Nat) :
    Except Err (List K) := do
  let y1 ← I.applyVec o r (vadd x (vsmul h (unitVec r i))) u
  let y0 ← I.applyVec o r x u
  return (vsub y1 y0).map (· / h)

/-- `_gradient(f, x, h)`, by rows: _base.py:325-330. -/
def OperI.gradientRows [Field K] (I : OperI K O) (o : O) (r : Nat) (u : Option (List K)) (x : List K) (h : K) :
    Except Err (List (List K)) := do
  return transpose r (← (range r).mapM (I.diffQuot o r u x h))

/-- `la.norm(A)` of a matrix given by rows. -/
def matNorm [Semiring K] (sqrt : K → K) (A : List (List K)) : K := sqrt (A.map sumSq).sum

/-- `hs = np.logspace(-10, -1, 10)[::-1]`: _base.py:336. -/
def fdSteps [Field K] : List K := (range 10).map fun i : Nat => 1 / 10 ^ (i + 1)

/-- `la.norm(_gradient(f, x, h) - dfx) / la.norm(dfx)`: _base.py:337-339. -/
def OperI.fdError [Field K] [DecidableEq K] (sqrt : K → K) (I : OperI K O) (o : O) (r : Nat) (u : Option (List K))
    (x : List K) (J : List (List K)) (h : K) : Except Err (Val K) := do
  let G ← I.gradientRows o r u x h
  return ratio (matNorm sqrt (zipWith vsub G J)) (matNorm sqrt J)

/-- `np.min(diffs) > fdifftol` raises VerificationError; the minimum is `nan` if one of the errors is:
_base.py:379-382. -/
def minExceeds [LinearOrder K] (tol : K) (diffs : List (Val K)) : Bool := diffs.all (Val.exceeds tol)

/-- The finite difference check: _base.py:361-382. -/
def OperI.verifyDiffs [Field K] [LinearOrder K] (sqrt : K → K) (I : OperI K O) (o : O) (r : Nat) (u : Option (List K))
    (x : List K) (tol : K) : Except Err Unit := do
  match ← I.jacobian o x u with
  | .num _ => throw .value
  | .arr J => insist (!minExceeds tol (← fdSteps.mapM (I.fdError sqrt o r u x J.rows)))

/-- The checks of `jacobian()`: _base.py:341-382. -/
def OperI.verifyJacobian [Field K] [LinearOrder K] (sqrt : K → K) (I : OperI K O) (o : O) (d : OpDraw K) (r : Nat)
    (m : Option Nat) (tol : K) : Except Err Unit :=
  match I.jacobian o (d.states.getD 0 []) (d.input m) with
  | .error .notImplemented => .ok ()
  | .error e => .error e
  | .ok (.num x) => insist (x = 0)
  | .ok (.arr J) => do
    insist (J.nrows == r && J.ncols == r)
    I.verifyDiffs sqrt o r (d.input m) d.point tol

/-- A loop over drawn states. -/
def eachState (f : List K → Except Err Unit) : List (List K) → Except Err Unit
  | [] => .ok ()
  | q :: qs => do
    f q
    eachState f qs

/-- `out.state_dimension == r` and, with inputs, `out.input_dimension == m`. -/
def OperI.keepsDims (I : OperI K O) (out : O) (r : Nat) (m : Option Nat) : Bool :=
  (I.stateDim out == some (r : Int)) && (match m with
    | none => true
    | some m => I.inputDim out == some (some (m : Int)))

/-- One comparison of a Petrov-Galerkin projection: _base.py:414-422. -/
def OperI.comparePetrov [Field K] [LinearOrder K] (lu : List (List K) → List K → Except Err (List K)) (I : OperI K O)
    (o out : O) (d : OpDraw K) (r n : Nat) (m : Option Nat) (q : List K) : Except Err Unit := do
  let y ← I.applyVec o r (matVec d.trial q) (d.input m)
  let full ← lu (matMul n (transpose n d.test) d.trial) (matVec (transpose n d.test) y)
  let reduced ← I.applyVec out n q (d.input m)
  insist (closeList reduced full)

/-- One comparison of a Galerkin projection: _base.py:425-433. -/
def OperI.compareGalerkin [Field K] [LinearOrder K] (I : OperI K O) (o out : O) (d : OpDraw K) (r n : Nat)
    (m : Option Nat) (q : List K) : Except Err Unit := do
  let y ← I.applyVec o r (matVec d.trial q) (d.input m)
  let reduced ← I.applyVec out n q (d.input m)
  insist (closeList reduced (matVec (transpose n d.trial) y))

/-- The checks of `galerkin()` once it is known to be implemented: _base.py:398-434. -/
def OperI.verifyProjected [Field K] [LinearOrder K] (lu : List (List K) → List K → Except Err (List K)) (I : OperI K O)
    (o out : O) (d : OpDraw K) (r n : Nat) (m : Option Nat) : Except Err Unit := do
  insist (I.isOperator out)
  insist (I.keepsDims out n m)
  eachState (I.comparePetrov lu o out d r n m) d.petrov
  let out ← I.galerkin o n d.trial none
  eachState (I.compareGalerkin o out d r n m) d.galerkin

/-- The checks of `galerkin()`: _base.py:389-436. -/
def OperI.verifyGalerkin [Field K] [LinearOrder K] (lu : List (List K) → List K → Except Err (List K)) (I : OperI K O)
    (o : O) (d : OpDraw K) (r : Nat) (m : Option Nat) : Except Err Unit :=
  if r ≤ 1 then .ok ()
  else match I.galerkin o (r / 2) d.trial (some d.test) with
    | .error .notImplemented => .ok ()
    | .error e => .error e
    | .ok out => I.verifyProjected lu o out d r (r / 2) m

/-- `np.allclose(out.apply(q, u), self.apply(q, u))`. -/
def OperI.compareApply [Field K] [LinearOrder K] (I : OperI K O) (o out : O) (r : Nat) (u : Option (List K))
    (q : List K) : Except Err Unit := do
  let y ← I.applyVec out r q u
  let z ← I.applyVec o r q u
  insist (closeList y z)

/-- The checks of a copy or a loaded operator: _base.py:440-462, 472-492. -/
def OperI.verifySame [Field K] [LinearOrder K] (I : OperI K O) (o out : O) (r : Nat) (m : Option Nat)
    (u : Option (List K)) (qs : List (List K)) : Except Err Unit := do
  insist (I.sameClass out o)
  insist (I.keepsDims out r m)
  eachState (I.compareApply o out r u) qs

/-- The name of the temporary file: _base.py:466. -/
def opTempFile : String := "_operatorverification.h5"

/-- `os.remove(path)` if there is a file. -/
def FS.remove (fs : FS K) (path : String) : FS K := fun p => if p = path then none else fs p

/-- `self.save(tempfile)` and `out = self.load(tempfile)`: _base.py:467-469. -/
def OperI.saveLoad (I : OperI K O) (o : O) (fs : FS K) : FS K × Except Err O :=
  match I.save o fs opTempFile with
  | (fs', .error e) => (fs', .error e)
  | (fs', .ok ()) => (fs', I.load o fs' opTempFile)

/-- The checks of `save()` and `load()`: _base.py:465-496. -/
def OperI.verifyFile [Field K] [LinearOrder K] (I : OperI K O) (o : O) (d : OpDraw K) (r : Nat) (m : Option Nat)
    (fs : FS K) : FS K × Except Err Unit :=
  let c := I.saveLoad o fs
  (c.1.remove opTempFile, match c.2 with
    | .error .notImplemented => .ok ()
    | .error e => .error e
    | .ok out => I.verifySame o out r m (d.input m) d.loaded)

/-- All checks before those of `save()` and `load()`; returns the dimensions. -/
def OperI.verifyMethods [Field K] [LinearOrder K] (sqrt : K → K) (lu : List (List K) → List K → Except Err (List K))
    (I : OperI K O) (o : O) (d : OpDraw K) (k : Nat) (tol : K) : Except Err (Nat × Option Nat) := do
  let (r, m) ← I.dims o
  I.verifyApply o d k r m
  I.verifyJacobian sqrt o d r m tol
  I.verifyGalerkin lu o d r m
  let out ← I.copy o
  I.verifySame o out r m (d.input m) d.copied
  return (r, m)

/-- `OperatorTemplate.verify(k=k, fdifftol=tol, ntests=..)`: _base.py:226-497. -/
def OperI.verify [Field K] [LinearOrder K] (sqrt : K → K) (lu : List (List K) → List K → Except Err (List K))
    (I : OperI K O) (o : O) (d : OpDraw K) (k : Nat) (tol : K) (fs : FS K) : FS K × Except Err Unit :=
  match I.verifyMethods sqrt lu o d k tol with
  | .error e => (fs, .error e)
  | .ok (r, m) => I.verifyFile o d r m fs

/-- What `OpInfOperator.verify` uses of the class: whether the two methods are static, and the methods. -/
structure OpInfI (K O : Type) where
  staticDim : Bool
  staticBlock : Bool
  dim : Nat → Nat → Option Int
  datablock : List (List K) → List (List K) → Except Err (Arg K)
  hasEntries : O → Bool

/-- The checks of `operator_dimension()` and `datablock()`: _base.py:860-886. -/
def OpInfI.verifyClass (C : OpInfI K O) (k : Nat) (states controls : List (List K)) (r m : Nat) : Except Err Unit := do
  insist C.staticDim
  let n ← positiveDim (C.dim r m)
  insist C.staticBlock
  let D ← C.datablock states controls
  insist (D.isMatrix n k)

/-- `OpInfOperator.verify(k=k, ntests=.., r=r, m=m)`: _base.py:822-891. -/
def OpInfI.verify [Field K] [LinearOrder K] (sqrt : K → K) (lu : List (List K) → List K → Except Err (List K))
    (C : OpInfI K O) (I : OperI K O) (o : O) (states controls : List (List K)) (d : OpDraw K) (k r m : Nat)
    (fs : FS K) : FS K × Except Err Unit :=
  match C.verifyClass k states controls r m with
  | .error e => (fs, .error e)
  | .ok () => if C.hasEntries o then I.verify sqrt lu o d k (1 / 10 ^ 5) fs else (fs, .ok ())

/-- `jacobian()` of the operators of the package: a class that does not override it returns `0` (_base.py:665). -/
def Op.jacobianVal [Field K] (o : Op K) (q : List K) (u : Option (List K)) : Except Err (JacVal K) :=
  match o.entries with
  | none => .error .attribute
  | some E => match o.kind with
    | .const | .inp => .ok (.num 0)
    | k => (k.jacobian E q (u.getD [])).map fun J => .arr ⟨J.length, (J.getD 0 []).length, J⟩

/-- `galerkin()` of the operators of the package. -/
def Op.galerkinVal [Field K] [DecidableEq K] (solve : List (List K) → Mat K → Except Err (Mat K)) (o : Op K) (r : Nat)
    (V : List (List K)) (W : Option (List (List K))) : Except Err (Op K) :=
  match o.entries with
  | none => .error .attribute
  | some E => do return ⟨o.kind, some (← o.kind.galerkin solve E r r V (W.getD V))⟩

/-- The operators of _nonparametric.py. -/
def opI [Field K] [DecidableEq K] (solve : List (List K) → Mat K → Except Err (Mat K)) : OperI K (Op K) where
  stateDim o := o.stateDim.map Int.ofNat
  inputDim o := if o.kind.hasInputs then some (o.inputDim.map Int.ofNat) else none
  apply := Op.apply
  jacobian := Op.jacobianVal
  galerkin := Op.galerkinVal solve
  isOperator _ := true
  sameClass a b := a.kind == b.kind
  copy := Op.copy
  save o fs path := let c := saveFile fs path false (o.saveH5, .ok ()); (c.1, c.2.1)
  load o fs path := loadFile fs path (Op.loadH5 o.kind)

/-- Their classes: _nonparametric.py (static methods); the number of rows of the data block is that of its first
column. -/
def opInfI [Field K] (kind : OpKind) : OpInfI K (Op K) where
  staticDim := true
  staticBlock := true
  dim r m := some (kind.dim r m : Int)
  datablock states controls := .ok (.mat ((kind.datablock states controls).getD 0 []).length
    (kind.datablock states controls))
  hasEntries o := o.entries.isSome

end Opinf
