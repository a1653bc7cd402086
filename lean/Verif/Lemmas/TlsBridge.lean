import Verif.Lemmas.TlsMatrix
import Verif.Lemmas.Basis
import Verif.Lemmas.MonoFit
import Verif.Lemmas.KronJac
import Verif.Props.LstsqSpec

/-!
# Lists of rows as matrices
-/

namespace Opinf

open List

variable {K : Type}

/-- The `k × n` matrix with the given rows. -/
def toM [Zero K] (k n : Nat) (A : List (List K)) : Matrix (Fin k) (Fin n) K :=
  Matrix.of fun i j => (A.getD i []).getD j 0

/-- The vector with the given entries. -/
def toV [Zero K] (n : Nat) (v : List K) : Fin n → K := fun i => v.getD i 0

theorem toM_apply [Zero K] (k n : Nat) (A : List (List K)) (i : Fin k) (j : Fin n) :
    toM k n A i j = (A.getD i []).getD j 0 := rfl

theorem dot_fin [CommSemiring K] (n : Nat) (a b : List K) (ha : a.length = n) (hb : b.length = n) :
    dot a b = ∑ i : Fin n, a.getD i 0 * b.getD i 0 := by
  have h : a = (range n).map fun i => a.getD i 0 := by rw [← ha, map_range_getD]
  conv_lhs => rw [h]
  rw [dot_range n _ b hb, Finset.sum_range]

theorem toV_matVec [CommSemiring K] (k n : Nat) (A : List (List K)) (x : List K) (hA : A.length = k)
    (hr : ∀ a ∈ A, a.length = n) (hx : x.length = n) : toV k (matVec A x) = (toM k n A).mulVec (toV n x) := by
  funext i
  have hi : (i : Nat) < A.length := hA ▸ i.2
  rw [toV, matVec, getD_eq_getElem _ _ (by rw [length_map]; exact hi), getElem_map,
    dot_fin n _ _ (hr _ (getElem_mem _)) hx]
  simp only [Matrix.mulVec, dotProduct, toM_apply, toV, getD_eq_getElem A _ hi]

theorem toV_ofFn [Zero K] (n : Nat) (x : Fin n → K) : toV n (ofFn x) = x := by
  funext i
  rw [toV, getD_eq_getElem _ _ (by simp), List.getElem_ofFn]

theorem toV_inj [Zero K] (n : Nat) (a b : List K) (ha : a.length = n) (hb : b.length = n)
    (h : toV n a = toV n b) : a = b := by
  apply ext_getElem (ha.trans hb.symm)
  intro i h1 h2
  have := congrFun h ⟨i, ha ▸ h1⟩
  simp only [toV] at this
  rw [getD_eq_getElem _ _ h1, getD_eq_getElem _ _ h2] at this
  exact this

theorem toV_zipWith_mul [MulZeroClass K] (n : Nat) (s v : List K) (hs : s.length = n) (hv : v.length = n) :
    toV n (zipWith (· * ·) s v) = fun i => toV n s i * toV n v i := by
  funext i
  simp only [toV]
  rw [getD_eq_getElem _ _ (by rw [length_zipWith, hs, hv]; simp), getElem_zipWith,
    getD_eq_getElem s _ (by rw [hs]; exact i.2), getD_eq_getElem v _ (by rw [hv]; exact i.2)]

theorem sumSq_fin [CommSemiring K] (n : Nat) (v : List K) (hv : v.length = n) :
    sumSq v = ∑ j : Fin n, v.getD j 0 ^ 2 := by
  rw [sumSq_eq_dot, dot_fin n v v hv hv]
  exact Finset.sum_congr rfl fun _ _ => (pow_two _).symm

theorem frob_toM [Field K] (k n : Nat) (A : List (List K)) (hA : A.length = k) (hr : ∀ a ∈ A, a.length = n) :
    (A.map sumSq).sum = frob (toM k n A) := by
  subst hA
  rw [frob, ← Fin.sum_univ_getElem]
  have hl : (A.map sumSq).length = A.length := length_map _
  rw [← Fin.sum_congr' _ hl.symm]
  refine Finset.sum_congr rfl fun i _ => ?_
  simp only [Fin.val_cast, getElem_map, toM_apply, getD_eq_getElem A _ i.2]
  exact sumSq_fin n _ (hr _ (getElem_mem _))

theorem toM_matMul [CommSemiring K] (k m n : Nat) (A B : List (List K)) (hA : A.length = k)
    (hAr : ∀ a ∈ A, a.length = m) (hB : B.length = m) (hBr : ∀ b ∈ B, b.length = n) :
    toM k n (matMul n A B) = toM k m A * toM m n B := by
  ext i j
  have hi : (i : Nat) < A.length := hA ▸ i.2
  rw [toM_apply, matMul, getD_eq_getElem (A.map _) _ (by rw [length_map]; exact hi), getElem_map,
    getD_vecMat n _ B hBr j j.2, dot_fin m _ _ (hAr _ (getElem_mem _)) (by rw [length_map, hB]),
    Matrix.mul_apply]
  refine Finset.sum_congr rfl fun l _ => ?_
  have hl : (l : Nat) < B.length := hB ▸ l.2
  rw [toM_apply, toM_apply, getD_eq_getElem A _ hi, getD_eq_getElem B _ hl,
    getD_eq_getElem (B.map _) _ (by rw [length_map]; exact hl), getElem_map]

/-- A matrix as a list of rows. -/
def ofM (k n : Nat) (M : Matrix (Fin k) (Fin n) K) : List (List K) := ofFn fun i => ofFn (M i)

theorem toM_ofM [Zero K] (k n : Nat) (M : Matrix (Fin k) (Fin n) K) : toM k n (ofM k n M) = M := by
  ext i j
  rw [toM_apply, ofM, getD_eq_getElem (ofFn fun i => ofFn (M i)) _ (by simp), List.getElem_ofFn, getD_eq_getElem _ _ (by simp), List.getElem_ofFn]

theorem ofM_length (k n : Nat) (M : Matrix (Fin k) (Fin n) K) : (ofM k n M).length = k := by simp [ofM]

theorem ofM_rows (k n : Nat) (M : Matrix (Fin k) (Fin n) K) : ∀ a ∈ ofM k n M, a.length = n := by
  intro a ha
  simp only [ofM, mem_ofFn] at ha
  obtain ⟨i, rfl⟩ := ha
  simp

/-- The entries of `[A B]`. -/
theorem toM_hcat [Zero K] (k d r : Nat) (A B : List (List K)) (hA : A.length = k) (hB : B.length = k)
    (hAr : ∀ a ∈ A, a.length = d) (i : Fin k) :
    (∀ j : Fin d, toM k (d + r) (zipWith (· ++ ·) A B) i (Fin.castAdd r j) = toM k d A i j) ∧
    ∀ j : Fin r, toM k (d + r) (zipWith (· ++ ·) A B) i (Fin.natAdd d j) = toM k r B i j := by
  have hi : (i : Nat) < A.length := hA ▸ i.2
  have hi' : (i : Nat) < B.length := hB ▸ i.2
  have h1 : (zipWith (· ++ ·) A B).getD i [] = A[(i : Nat)] ++ B[(i : Nat)] := by
    rw [getD_eq_getElem _ _ (by rw [length_zipWith]; omega), getElem_zipWith]
  have hl : A[(i : Nat)].length = d := hAr _ (getElem_mem _)
  constructor
  · intro j
    rw [toM_apply, toM_apply, h1, getD_eq_getElem A _ hi]
    simp only [getD_eq_getElem?_getD, Fin.val_castAdd]
    rw [getElem?_append_left (by rw [hl]; exact j.2)]
  · intro j
    rw [toM_apply, toM_apply, h1, getD_eq_getElem B _ hi']
    simp only [getD_eq_getElem?_getD, Fin.val_natAdd]
    rw [getElem?_append_right (by omega), hl, Nat.add_sub_cancel_left]

/-- A singular value decomposition, as matrices. -/
theorem svd_matrices [Field K] (A : Mat K) (u : Svd K) (h : IsSVD A u) (hA : A.WF) (k n : Nat)
    (hk : A.nrows = k) (hn : A.ncols = n) (hs : u.s.length = n) :
    (toM k n u.Phi.rows).transpose * toM k n u.Phi.rows = 1 ∧
    toM n n u.PsiT.rows * (toM n n u.PsiT.rows).transpose = 1 ∧
    toM k n A.rows = toM k n u.Phi.rows * Matrix.diagonal (toV n u.s) * toM n n u.PsiT.rows := by
  have p1 : u.Phi.rows.length = k := by rw [h.phiWF.1, h.phiRows, hk]
  have p2 : ∀ a ∈ u.Phi.rows, a.length = n := fun a ha => by rw [h.phiWF.2 a ha, h.phiCols, hs]
  have q1 : u.PsiT.rows.length = n := by rw [h.psiWF.1, h.psiRows, hs]
  have q2 : ∀ a ∈ u.PsiT.rows, a.length = n := fun a ha => by rw [h.psiWF.2 a ha, h.psiCols, hn]
  have a1 : A.rows.length = k := by rw [hA.1, hk]
  have a2 : ∀ a ∈ A.rows, a.length = n := fun a ha => by rw [hA.2 a ha, hn]
  refine ⟨?_, ?_, ?_⟩
  · ext i j
    have := h.orthPhi (ofFn (Pi.single i 1)) (ofFn (Pi.single j 1)) (by simp [hs]) (by simp [hs])
    rw [dot_fin k _ _ (by rw [length_matVec, p1]) (by rw [length_matVec, p1]),
      dot_fin n _ _ (by simp) (by simp)] at this
    have e1 : ∀ x : List K, ∀ l : Nat, (matVec u.Phi.rows x).getD l 0 = (matVec u.Phi.rows x).getD l 0 := fun _ _ => rfl
    have m1 : ∀ x : Fin n → K, ∀ l : Fin k, (matVec u.Phi.rows (ofFn x)).getD l 0
        = (toM k n u.Phi.rows).mulVec x l := by
      intro x l
      have := congrFun (toV_matVec k n u.Phi.rows (ofFn x) p1 p2 (by simp)) l
      rw [toV_ofFn] at this
      exact this
    have m2 : ∀ x : Fin n → K, ∀ l : Fin n, (ofFn x).getD l 0 = x l := fun x l => congrFun (toV_ofFn n x) l
    simp only [m1, m2] at this
    rw [Matrix.mul_apply]
    simp only [Matrix.transpose_apply]
    simp only [Matrix.mulVec_single_one, Matrix.col_apply] at this
    rw [this, Matrix.one_apply]
    simp [Pi.single_apply, eq_comm]
  · ext i j
    have := h.orthPsi (ofFn (Pi.single j 1)) (by simp [hs])
    rw [h.psiCols, hn] at this
    have hv := congrFun (toV_matVec n n u.PsiT.rows (vecMat n (ofFn (Pi.single j 1)) u.PsiT.rows) q1 q2
      (length_vecMat _ _ _ q2)) i
    rw [this, toV_ofFn] at hv
    have hw : toV n (vecMat n (ofFn (Pi.single j (1 : K))) u.PsiT.rows) = fun l => toM n n u.PsiT.rows j l := by
      funext l
      rw [toV, getD_vecMat n _ _ q2 l l.2, dot_fin n _ _ (by simp) (by rw [length_map, q1])]
      rw [Finset.sum_eq_single j]
      · have hj : (j : Nat) < u.PsiT.rows.length := q1 ▸ j.2
        rw [getD_eq_getElem (ofFn _) _ (by simp), List.getElem_ofFn,
          getD_eq_getElem (map _ _) _ (by rw [length_map]; exact hj), getElem_map, toM_apply,
          getD_eq_getElem u.PsiT.rows _ hj]
        simp
      · intro b _ hb
        rw [getD_eq_getElem (ofFn _) _ (by simp), List.getElem_ofFn]
        simp [Pi.single_apply, hb]
      · simp
    rw [hw] at hv
    rw [Matrix.mul_apply, Matrix.one_apply]
    simp only [Matrix.mulVec, dotProduct] at hv
    simp only [Matrix.transpose_apply]
    rw [← hv]
    simp [Pi.single_apply]
  · apply Matrix.ext_of_mulVec_single
    intro j
    have hx : (ofFn (Pi.single j (1 : K))).length = A.ncols := by simp [hn]
    have := congrArg (toV k) (h.recon (ofFn (Pi.single j 1)) hx)
    rw [toV_matVec k n _ _ a1 a2 (by simp), toV_matVec k n _ _ p1 p2 (by simp [hs, q1, matVec]),
      toV_zipWith_mul n _ _ hs (by simp [q1, matVec]), toV_matVec n n _ _ q1 q2 (by simp), toV_ofFn] at this
    rw [this, ← Matrix.mulVec_mulVec, ← Matrix.mulVec_mulVec]
    congr 1
    funext i
    rw [Matrix.mulVec_diagonal]

end Opinf
