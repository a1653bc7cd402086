import Verif.Lemmas.Lstsq

/-!
# Specifications for the least-squares solvers

Objectives, minimisers, and the contracts of the external routines `scipy.linalg.svd`, `lstsq`,
`solve`. The contracts are stated for the arguments at which the code calls the routine.
-/

namespace Opinf

open List

variable {K : Type}

/-- `o` minimises `J` over all vectors of length `d`. -/
def Minimises [LE K] (J : List K → K) (d : Nat) (o : List K) : Prop :=
  o.length = d ∧ ∀ o' : List K, o'.length = d → J o ≤ J o'

/-- `‖D o − z‖² + λ² ‖o‖²`. -/
def objL2 [CommRing K] (D : Mat K) (lam : K) (z o : List K) : K :=
  sumSq (vsub (matVec D.rows o) z) + lam ^ 2 * sumSq o

/-- `‖D o − z‖² + ‖Γ o‖²`. -/
def objTik [CommRing K] (D G : Mat K) (z o : List K) : K :=
  sumSq (vsub (matVec D.rows o) z) + sumSq (matVec G.rows o)

/-- Column `j` of a matrix given by rows. -/
def col [Zero K] (A : List (List K)) (j : Nat) : List K := A.map fun row => row.getD j 0

/-- `u` is a thin singular value decomposition of `D`: `D = Φ diag(s) Ψᵀ` with orthonormal columns
of `Φ` and orthonormal rows of `Ψᵀ`. -/
structure IsSVD [Semiring K] (D : Mat K) (u : Svd K) : Prop where
  phiWF : u.Phi.WF
  psiWF : u.PsiT.WF
  phiRows : u.Phi.nrows = D.nrows
  phiCols : u.Phi.ncols = u.s.length
  psiRows : u.PsiT.nrows = u.s.length
  psiCols : u.PsiT.ncols = D.ncols
  recon : ∀ x : List K, x.length = D.ncols →
    matVec D.rows x = matVec u.Phi.rows (zipWith (· * ·) u.s (matVec u.PsiT.rows x))
  orthPhi : ∀ v w : List K, v.length = u.s.length → w.length = u.s.length →
    dot (matVec u.Phi.rows v) (matVec u.Phi.rows w) = dot v w
  orthPsi : ∀ v : List K, v.length = u.s.length →
    matVec u.PsiT.rows (vecMat u.PsiT.ncols v u.PsiT.rows) = v

/-- `X` is a least-squares solution of `A X = B`, column by column. -/
structure IsLstsq [CommRing K] [LE K] (A B X : Mat K) : Prop where
  wf : X.WF
  rows : X.nrows = A.ncols
  cols : X.ncols = B.ncols
  min : ∀ j, j < B.ncols →
    Minimises (fun x => sumSq (vsub (matVec A.rows x) (col B.rows j))) A.ncols (col X.rows j)

/-- `X` solves `A X = B` exactly, column by column. -/
structure IsSolution [Semiring K] (A B X : Mat K) : Prop where
  wf : X.WF
  rows : X.nrows = A.ncols
  cols : X.ncols = B.ncols
  eq : ∀ j, j < B.ncols → matVec A.rows (col X.rows j) = col B.rows j

end Opinf
