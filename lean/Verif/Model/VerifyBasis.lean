import Verif.Model.Verify
import Verif.Model.Basis

/-!
# `verify()` and `projection_error()` of bases

/repo/src/opinf/basis/_base.py:183-213 (`projection_error`), 230-294 (`verify`, `_verify_locs`) and
/repo/src/opinf/basis/_multi.py:517-552 (`BasisMulti.verify`, `_verify_locs`).

Simplifications: the random numbers are arguments (`Draw`); arithmetic is exact; the printed messages are left
out; `compress` and `decompress` are functions of the basis and their argument (they do not change either).
-/

namespace Opinf

open List

variable {K S : Type}

/-- `Y.shape[1]`. -/
def Snap.shapeOne : Snap K → Except Err Nat
  | .vec _ => .error .index
  | .mat k _ => .ok k

/-- `np.ndim(Y) == 1`. -/
def Snap.isVec : Snap K → Bool
  | .vec _ => true
  | .mat _ _ => false

/-- `statevec = states[:, 0]`: basis/_base.py:239. -/
def Draw.first [Zero K] (d : Draw K) : Snap K := .vec (d.states.map fun row => row.getD 0 0)

/-- The checks of `compress()` and `decompress()`: basis/_base.py:241-264. Returns `states_compressed` and
`states_projected`. -/
def BasI.verifyShapes (I : BasI K S) (s : S) (Y y : Snap K) : Except Err (Snap K × Snap K) := do
  let Z ← I.compress s Y
  insist (decide ((← Z.shapeOne) = (← Y.shapeOne)))
  let z ← I.compress s y
  insist z.isVec
  let P ← I.decompress s Z none
  insist (sameDims P Y)
  let p ← I.decompress s z none
  insist p.isVec
  return (Z, P)

/-- `BasisTemplate._verify_locs`: basis/_base.py:274-294. -/
def BasI.verifyLocs [Field K] [LinearOrder K] (I : BasI K S) (s : S) (locs : List Nat) (Z P : Snap K) :
    Except Err Unit := do
  let Pl ← P.atLocs locs
  compareAt (← I.decompress s Z (some (.idx (locs.map fun i : Nat => (i : Int))))) Pl

/-- `BasisTemplate.verify()`: basis/_base.py:230-272, for a given `_verify_locs`. -/
def BasI.verifyWith [Field K] [LinearOrder K] (I : BasI K S) (locsCheck : Snap K → Snap K → Except Err Unit)
    (s : S) (d : Draw K) : Except Err Unit :=
  if (I.n s).isNone then .error .attribute
  else do
    let ZP ← I.verifyShapes s d.snap d.first
    locsCheck ZP.1 ZP.2
    let Q ← I.project s ZP.2
    insist (allClose Q ZP.2)

/-- `verify()` of a basis that is not a `BasisMulti`. -/
def BasI.verify [Field K] [LinearOrder K] (I : BasI K S) (s : S) (d : Draw K) : Except Err Unit :=
  I.verifyWith (I.verifyLocs s d.locs) s d

/-- A `BasisMulti` as a basis: basis/_multi.py:97-136, 300-401. Its name is not used, and the dimension of the
full state cannot be set. -/
def multiBasI (I : BasI K S) : BasI K (List S) where
  n bs := sizesSum I.n bs
  setN bs _ := bs
  r bs := sizesSum I.r bs
  name _ := none
  setName bs _ := bs
  fit := basisMultiFit I
  compress := basisMultiCompress I
  decompress := basisMultiDecompress I

/-- `BasisMulti._verify_locs`: basis/_multi.py:529-552. -/
def multiBasVerifyLocs [Field K] [LinearOrder K] (I : BasI K S) (bs : List S) (locs : List Nat) (Z P : Snap K) :
    Except Err Unit :=
  if (bs.map I.n).dedup.length ≠ 1 then .ok ()
  else do
    let Pl ← Snap.concat (← (← basisSplit I bs P).mapM fun Q => Q.atLocs locs)
    compareAt (← basisMultiDecompress I bs Z (some (.idx (locs.map fun i : Nat => (i : Int))))) Pl

/-- `BasisMulti.verify()`: basis/_multi.py:517-527. `verify` is the method of the bases in the list, `ds` their
random numbers, `d` those of the multi-variable basis itself. -/
def multiBasVerify [Field K] [LinearOrder K] {D : Type} (I : BasI K S) (verify : S → D → Except Err Unit)
    (bs : List S) (ds : List D) (d : Draw K) : Except Err Unit := do
  verifyEach verify bs ds
  (multiBasI I).verifyWith (multiBasVerifyLocs I bs d.locs) bs d

/-- `projection_error(state, relative)`: basis/_base.py:183-213, for a `project` that keeps the shape. -/
def BasI.projectionError [Field K] [DecidableEq K] (sqrt : K → K) (I : BasI K S) (s : S) (Y : Snap K)
    (relative : Bool) : Except Err (Val K) := do
  let D ← Y.minus (← I.project s Y)
  return if relative then ratio (D.norm sqrt) (Y.norm sqrt) else .num (D.norm sqrt)

end Opinf
