import Verif.Model.Transform
import Verif.Model.FiniteDiff
import Verif.Model.Post

/-!
# `verify()` of transformers

/repo/src/opinf/pre/_base.py:233-355 (`TransformerTemplate.verify`, `_verify_locs`) and
/repo/src/opinf/pre/_multi.py:747-800 (`TransformerMulti.verify`, `_verify_locs`).

Simplifications: the random numbers are arguments (`Draw`); arithmetic is exact; the printed messages are left
out. Whether two names refer to the same array is not modelled as such: `x is not y` after an in-place call
is modelled by comparing the contents of the argument afterwards with the returned values, and the tests that
a call with `inplace=False` does not return its argument are left out (a returned array is always a different
one). A method `transform_ddts` that returns `NotImplemented` is modelled by the exception `notImplemented`.
-/

namespace Opinf

open List

variable {K S : Type}

/-- The random numbers of one call of `verify()`: `np.random.random((n, 20))` and
`np.sort(np.random.choice(n, size=(n // 3), replace=False))`. -/
structure Draw (K : Type) where
  states : List (List K)
  locs : List Nat

/-- `states`: pre/_base.py:261. -/
def Draw.snap (d : Draw K) : Snap K := .mat 20 d.states

/-- `Y.shape == Z.shape`. -/
def sameDims : Snap K → Snap K → Bool
  | .vec xs, .vec ys => xs.length == ys.length
  | .mat k a, .mat l b => k == l && a.length == b.length
  | _, _ => false

/-- One comparison of `np.allclose(x, y)` with the default tolerances: `|x - y| ≤ 1e-8 + 1e-5 |y|`. -/
def closeTo [Field K] [LinearOrder K] (x y : K) : Bool :=
  decide (|x - y| ≤ 1 / 10 ^ 8 + 1 / 10 ^ 5 * |y|)

/-- All comparisons of two lists of the same length. -/
def closeList [Field K] [LinearOrder K] : List K → List K → Bool
  | x :: xs, y :: ys => closeTo x y && closeList xs ys
  | [], [] => true
  | _, _ => false

/-- All comparisons of two lists of rows. -/
def closeRows [Field K] [LinearOrder K] : List (List K) → List (List K) → Bool
  | x :: xs, y :: ys => closeList x y && closeRows xs ys
  | [], [] => true
  | _, _ => false

/-- `np.allclose(X, Y)` for arrays of the same shape (others are not close). -/
def allClose [Field K] [LinearOrder K] : Snap K → Snap K → Bool
  | .vec xs, .vec ys => closeList xs ys
  | .mat _ a, .mat _ b => closeRows a b
  | _, _ => false

/-- `if not ok: raise errors.VerificationError`. -/
def insist (ok : Bool) : Except Err Unit := if ok then .ok () else .error .verification

/-- `Y[locs]`. -/
def Snap.atLocs [Zero K] (Y : Snap K) (locs : List Nat) : Except Err (Snap K) := do
  return Y.pick (← locs.mapM fun i : Nat => pyIndex Y.len i)

/-- The checks of `transform()` and `inverse_transform()`: pre/_base.py:263-307. Returns `states` and
`states_transformed` as they are afterwards. -/
def TfI.verifyInverse [Field K] [LinearOrder K] (I : TfI K S) (s : S) (Y : Snap K) :
    Except Err (Snap K × Snap K) := do
  let c1 := I.transform s false Y
  let Z ← c1.2
  insist (sameDims Z c1.1)
  let c2 := I.transform s true c1.1
  let Z ← c2.2
  insist (c2.1 = Z)
  let c3 := I.inverse s false Z none
  let R ← c3.2
  insist (sameDims R c1.1)
  let c4 := I.inverse s true c3.1 none
  let R ← c4.2
  insist (c4.1 = R)
  insist (allClose R c1.1)
  return (c1.1, c3.1)

/-- Compare the recovered states at the locations with the original ones: pre/_base.py:346-355. -/
def compareAt [Field K] [LinearOrder K] (R : Snap K) (Y : Snap K) : Except Err Unit := do
  insist (sameDims R Y)
  insist (allClose R Y)

/-- `TransformerTemplate._verify_locs`: pre/_base.py:336-355. -/
def TfI.verifyLocs [Field K] [LinearOrder K] (I : TfI K S) (s : S) (locs : List Nat) (Y Z : Snap K) :
    Except Err Unit := do
  let Zl ← Z.atLocs locs
  let R ← (I.inverse s false Zl (some (.idx (locs.map fun i : Nat => (i : Int))))).2
  compareAt R (← Y.atLocs locs)

/-- `TransformerMulti._verify_locs`: pre/_multi.py:775-800. -/
def multiVerifyLocs [Field K] [LinearOrder K] (I : TfI K S) (ts : List S) (locs : List Nat) (Y Z : Snap K) :
    Except Err Unit :=
  if (ts.map I.dim).dedup.length ≠ 1 then .ok ()
  else do
    let Yl ← Snap.concat (← (← multiSplit I ts Y).mapM fun Q => Q.atLocs locs)
    let Zl ← Snap.concat (← (← multiSplit I ts Z).mapM fun Q => Q.atLocs locs)
    let R ← (multiInverse I ts false Zl (some (.idx (locs.map fun i : Nat => (i : Int))))).2
    compareAt R Yl

/-- `np.linspace(0, 0.1, 20)`: pre/_base.py:313. -/
def verifyTimes [Field K] : List K := (range 20).map fun i : Nat => (i : K) / 190

/-- `ddt.ddt(states, t)` with an array `t`: ddt/_finite_difference.py:1125-1186, 1113-1122. -/
def Snap.ddt [Field K] (t : List K) : Snap K → Except Err (Snap K)
  | .vec _ => .error .dimensionality
  | .mat k rows => do
    let M ← ddtNonuniform t ⟨rows.length, k, rows⟩
    return .mat M.ncols M.rows

/-- `la.norm(Y)`. -/
def Snap.norm [Semiring K] (sqrt : K → K) : Snap K → K
  | .vec xs => sqrt (sumSq xs)
  | .mat _ rows => sqrt (rows.map sumSq).sum

/-- `Y - Z` for arrays of the same shape. -/
def Snap.minus [Sub K] : Snap K → Snap K → Except Err (Snap K)
  | .vec xs, .vec ys => if xs.length = ys.length then .ok (.vec (vsub xs ys)) else .error .value
  | .mat k a, .mat l b =>
    if k = l ∧ a.length = b.length then .ok (.mat k (zipWith vsub a b)) else .error .value
  | _, _ => .error .value

/-- `x > tol` for a float that may be infinite or `nan`. -/
def Val.exceeds [LinearOrder K] (tol : K) : Val K → Bool
  | .num x => decide (tol < x)
  | .inf => true
  | .ninf => false
  | .nan => false

/-- `if (diff := la.norm(E - F) / la.norm(F)) > tol: raise errors.VerificationError`:
pre/_base.py:321-328. -/
def compareRel [Field K] [LinearOrder K] (sqrt : K → K) (tol : K) (E F : Snap K) : Except Err Unit := do
  let D ← E.minus F
  insist (!(ratio (D.norm sqrt) (F.norm sqrt)).exceeds tol)

/-- The finite difference check once `transform_ddts` is known to be implemented: pre/_base.py:313-334. -/
def TfI.compareDdts [Field K] [LinearOrder K] (sqrt : K → K) (I : TfI K S) (s : S) (tol : K) (Y Z : Snap K) :
    Except Err Unit := do
  let D ← Y.ddt verifyTimes
  let c1 := I.ddts s false D
  let E ← c1.2
  compareRel sqrt tol E (← Z.ddt verifyTimes)
  let c2 := I.ddts s true c1.1
  let E ← c2.2
  insist (c2.1 = E)

/-- The finite difference check of `transform_ddts()`: pre/_base.py:310-334. -/
def TfI.verifyDdts [Field K] [LinearOrder K] (sqrt : K → K) (I : TfI K S) (s : S) (tol : K) (Y Z : Snap K) :
    Except Err Unit :=
  match I.ddts s false Y with
  | (_, .error .notImplemented) => .ok ()
  | (_, .error e) => .error e
  | (Y', .ok _) => I.compareDdts sqrt s tol Y' Z

/-- `TransformerTemplate.verify(tol)`: pre/_base.py:233-334, for a given `_verify_locs`. -/
def TfI.verifyWith [Field K] [LinearOrder K] (sqrt : K → K) (I : TfI K S)
    (locsCheck : Snap K → Snap K → Except Err Unit) (s : S) (tol : K) (Y : Snap K) : Except Err Unit :=
  if (I.dim s).isNone then .error .attribute
  else do
    let YZ ← I.verifyInverse s Y
    locsCheck YZ.1 YZ.2
    I.verifyDdts sqrt s tol YZ.1 YZ.2

/-- `verify(tol)` of a transformer that is not a `TransformerMulti`. -/
def TfI.verify [Field K] [LinearOrder K] (sqrt : K → K) (I : TfI K S) (s : S) (tol : K) (d : Draw K) :
    Except Err Unit :=
  I.verifyWith sqrt (I.verifyLocs s d.locs) s tol d.snap

/-- The loop over the transformers in `TransformerMulti.verify`: pre/_multi.py:770-772. -/
def verifyEach {D : Type} (verify : S → D → Except Err Unit) : List S → List D → Except Err Unit
  | t :: ts, d :: ds => do
    verify t d
    verifyEach verify ts ds
  | _, _ => .ok ()

/-- `TransformerMulti.verify(tol)`: pre/_multi.py:747-773. `verify` is the method of the transformers in the
list, `ds` their random numbers, `d` those of the multi-variable transformer itself. -/
def multiVerify [Field K] [LinearOrder K] {D : Type} (sqrt : K → K) (I : TfI K S)
    (verify : S → D → Except Err Unit) (ts : List S) (tol : K) (ds : List D) (d : Draw K) :
    Except Err Unit := do
  verifyEach verify ts ds
  (multiI I).verifyWith sqrt (multiVerifyLocs I ts d.locs) ts tol d.snap

end Opinf
