import Verif.Lemmas.TlsBridge
import Verif.Lemmas.TlsFeasible
import Verif.Props.LstsqL2

/-!
# Total least squares (C27)

`(O, ΔD, ΔZ)` is feasible when `(D + ΔD) Oᵀ = (Z + ΔZ)ᵀ`. The total least-squares problem asks for a
feasible triple whose `‖ΔD‖² + ‖ΔZ‖²` is as small as possible.
-/

namespace Opinf

open List

variable {K : Type}

/-- The sum of the squares of all entries. -/
def Mat.sqNorm [Semiring K] (A : Mat K) : K := (A.rows.map sumSq).sum

/-- `(D + ΔD) Oᵀ = (Z + ΔZ)ᵀ`, row by row, for arrays of the right shapes. -/
structure TlsFeasible [Semiring K] (D Z O dD dZ : Mat K) : Prop where
  oWF : O.WF
  oRows : O.nrows = Z.nrows
  oCols : O.ncols = D.ncols
  dWF : dD.WF
  dRows : dD.nrows = D.nrows
  dCols : dD.ncols = D.ncols
  zWF : dZ.WF
  zRows : dZ.nrows = Z.nrows
  zCols : dZ.ncols = Z.ncols
  eq : ∀ i, i < D.nrows →
    matVec O.rows (vadd (D.rows.getD i []) (dD.rows.getD i [])) = vadd (col Z.rows i) (col dZ.rows i)

/-- What `scipy.linalg.svd(A, full_matrices=False)` promises for a tall `A`: a thin singular value
decomposition with nonnegative singular values in decreasing order. -/
def TallSvd [Field K] [LinearOrder K] (svd : Mat K → Except Err (Svd K)) : Prop :=
  ∀ A u, A.WF → A.ncols ≤ A.nrows → svd A = .ok u →
    IsSVD A u ∧ u.s.length = A.ncols ∧ u.s.Pairwise (· ≥ ·) ∧ ∀ x ∈ u.s, 0 ≤ x

/-- What `scipy.linalg.solve(A, B)` promises for a square `A`: when it answers, the answer solves the
system and `A` is invertible (a singular `A` raises `LinAlgError`). -/
def SquareSolve [Semiring K] (solve : Mat K → Mat K → Except Err (Mat K)) : Prop :=
  ∀ A B X, A.WF → A.nrows = A.ncols → B.WF → B.nrows = A.nrows → solve A B = .ok X →
    IsSolution A B X ∧ ∃ Y, IsSolution A (Mat.eye K A.nrows) Y

/-! ### Bridging lemmas -/

theorem toV_vadd [Semiring K] (n : Nat) (a b : List K) (ha : a.length = n) (hb : b.length = n) (i : Fin n) :
    toV n (vadd a b) i = toV n a i + toV n b i := by
  simp only [toV, vadd]
  rw [getD_eq_getElem _ _ (by rw [length_zipWith, ha, hb]; simp), getElem_zipWith,
    getD_eq_getElem a _ (by rw [ha]; exact i.2), getD_eq_getElem b _ (by rw [hb]; exact i.2)]

theorem toV_col [Semiring K] (r k : Nat) (A : List (List K)) (hA : A.length = r) (j : Fin k) (l : Fin r) :
    toV r (col A j) l = toM r k A l j := by
  have hl : (l : Nat) < A.length := hA ▸ l.2
  rw [toV, col, getD_eq_getElem _ _ (by rw [length_map]; exact hl), getElem_map, toM_apply,
    getD_eq_getElem A _ hl]

theorem toM_t [Field K] (r k : Nat) (Z : Mat K) (hZ : Z.WF) (hr : Z.nrows = r) (hk : Z.ncols = k) :
    toM k r Z.t.rows = (toM r k Z.rows).transpose := by
  ext i l
  rw [Matrix.transpose_apply, ← toV_col r k Z.rows (hZ.1.trans hr) i l, toV, toM_apply]
  congr 1
  have hi : (i : Nat) < Z.ncols := hk ▸ i.2
  rw [Mat.t, transpose, getD_eq_getElem _ _ (by rw [length_map, length_range]; exact hi), getElem_map,
    getElem_range]
  rfl

theorem isSolution_toM [CommSemiring K] (m n : Nat) (A B X : Mat K) (hA : A.WF) (h1 : A.nrows = m)
    (h2 : A.ncols = m) (hB : B.WF) (h3 : B.nrows = m) (h4 : B.ncols = n) (h : IsSolution A B X) :
    toM m m A.rows * toM m n X.rows = toM m n B.rows := by
  have x1 : X.rows.length = m := by rw [h.wf.1, h.rows, h2]
  ext i j
  have := congrFun (congrArg (toV m) (h.eq j (h4 ▸ j.2))) i
  rw [toV_col m n B.rows (hB.1.trans h3) j i, toV_matVec m m A.rows _ (hA.1.trans h1)
    (fun a ha => (hA.2 a ha).trans h2) (by rw [col, length_map, x1])] at this
  rw [← this, Matrix.mul_apply, Matrix.mulVec, dotProduct]
  exact Finset.sum_congr rfl fun l _ => by rw [toV_col m n X.rows x1 j l]

theorem toM_eye [CommSemiring K] (m : Nat) : toM m m (eye m : List (List K)) = 1 := by
  ext i j
  have h : (eye m : List (List K)).getD i [] = (range m).map fun j => if (i : Nat) = j then 1 else 0 := by
    rw [eye, getD_eq_getElem _ _ (by simp), getElem_map, getElem_range]
  rw [toM_apply, h, getD_eq_getElem _ _ (by simp), getElem_map, getElem_range, Matrix.one_apply]
  simp only [Fin.ext_iff]

/-- Feasibility as an equation of matrices. -/
theorem feasible_iff_toM [Field K] (k d r : Nat) (D Z O dD dZ : Mat K) (hD : D.WF) (hZ : Z.WF)
    (hO : O.WF) (hdD : dD.WF) (hdZ : dZ.WF) (d1 : D.nrows = k) (d2 : D.ncols = d) (z1 : Z.nrows = r)
    (o1 : O.nrows = r) (o2 : O.ncols = d) (e1 : dD.nrows = k) (e2 : dD.ncols = d) (f1 : dZ.nrows = r) :
    (∀ i, i < D.nrows →
      matVec O.rows (vadd (D.rows.getD i []) (dD.rows.getD i [])) = vadd (col Z.rows i) (col dZ.rows i)) ↔
    (toM k d D.rows + toM k d dD.rows) * (toM r d O.rows).transpose
      = (toM r k Z.rows).transpose + (toM r k dZ.rows).transpose := by
  have rowD : ∀ i : Fin k, (D.rows.getD i []).length = d := by
    intro i
    rw [getD_eq_getElem D.rows _ (by rw [hD.1, d1]; exact i.2), hD.2 _ (getElem_mem _), d2]
  have rowE : ∀ i : Fin k, (dD.rows.getD i []).length = d := by
    intro i
    rw [getD_eq_getElem dD.rows _ (by rw [hdD.1, e1]; exact i.2), hdD.2 _ (getElem_mem _), e2]
  have zl : Z.rows.length = r := hZ.1.trans z1
  have fl : dZ.rows.length = r := hdZ.1.trans f1
  have ol : O.rows.length = r := hO.1.trans o1
  have key : ∀ (i : Fin k) (l : Fin r),
      toV r (matVec O.rows (vadd (D.rows.getD i []) (dD.rows.getD i []))) l
        = ((toM k d D.rows + toM k d dD.rows) * (toM r d O.rows).transpose) i l := by
    intro i l
    rw [toV_matVec r d O.rows _ ol (fun a ha => (hO.2 a ha).trans o2)
      (by rw [vadd, length_zipWith, rowD, rowE, min_self]), Matrix.mul_apply, Matrix.mulVec, dotProduct]
    refine Finset.sum_congr rfl fun j _ => ?_
    rw [toV_vadd d _ _ (rowD i) (rowE i) j, Matrix.transpose_apply, Matrix.add_apply, mul_comm]
    rfl
  have key2 : ∀ (i : Fin k) (l : Fin r), toV r (vadd (col Z.rows i) (col dZ.rows i)) l
      = ((toM r k Z.rows).transpose + (toM r k dZ.rows).transpose) i l := by
    intro i l
    rw [toV_vadd r _ _ (by rw [col, length_map, zl]) (by rw [col, length_map, fl]) l,
      toV_col r k Z.rows zl i l, toV_col r k dZ.rows fl i l]
    rfl
  constructor
  · intro h
    ext i l
    rw [← key i l, ← key2 i l, h i (d1 ▸ i.2)]
  · intro h i hi
    refine toV_inj r _ _ (by rw [length_matVec, ol])
      (by rw [vadd, length_zipWith, col, col, length_map, length_map, zl, fl, min_self]) ?_
    funext l
    have := key ⟨i, d1 ▸ hi⟩ l
    simp only at this
    rw [this, h, ← key2 ⟨i, d1 ▸ hi⟩ l]

/-- Feasibility as vanishing of `[D + ΔD, (Z + ΔZ)ᵀ] [O, -I]ᵀ`. -/
theorem feasible_null [Field K] {k d r : Nat} (D E : Matrix (Fin k) (Fin d) K) (Z F : Matrix (Fin k) (Fin r) K)
    (O : Matrix (Fin r) (Fin d) K) : (D + E) * O.transpose = Z + F ↔
    (hM D Z + hM E F) * (hM O (-1 : Matrix (Fin r) (Fin r) K)).transpose = 0 := by
  rw [hM_add, hM_mul, Matrix.transpose_neg, Matrix.transpose_one, Matrix.mul_neg, Matrix.mul_one,
    ← sub_eq_add_neg, sub_eq_zero]

theorem toM_vstack [Field K] (k d r : Nat) (D Z : Mat K) (hD : D.WF) (hZ : Z.WF) (d1 : D.nrows = k)
    (d2 : D.ncols = d) (z1 : Z.nrows = r) (z2 : Z.ncols = k) :
    toM k (d + r) (zipWith (· ++ ·) D.rows Z.t.rows) = hM (toM k d D.rows) (toM r k Z.rows).transpose := by
  have hl : Z.t.rows.length = k := by simp [Mat.t, transpose, z2]
  have h := toM_hcat k d r D.rows Z.t.rows (hD.1.trans d1) hl fun a ha => (hD.2 a ha).trans d2
  rw [← toM_t r k Z hZ z1 z2]
  apply hM_ext
  · intro i j; rw [(h i).1, hM_left]
  · intro i j; rw [(h i).2, hM_right]

theorem toM_block [Field K] (n i a m c : Nat) (A : Mat K) (hA : A.WF) (h1 : A.nrows = n) (h2 : A.ncols = n)
    (hi : i + m = n) (ha : a + c ≤ n) (x : Fin m) (y : Fin c) :
    toM m c (A.block i a (a + c)).rows x y = toM n n A.rows ⟨i + x, by omega⟩ ⟨a + y, by omega⟩ := by
  have hx : i + (x : Nat) < A.rows.length := by rw [hA.1, h1]; omega
  rw [toM_apply, toM_apply, Mat.block]
  simp only
  rw [getD_eq_getElem (map _ _) _ (by rw [length_map, length_drop]; omega), getElem_map, getElem_drop,
    getD_eq_getElem A.rows _ hx]
  have hr : A.rows[i + (x : Nat)].length = n := (hA.2 _ (getElem_mem _)).trans h2
  rw [getD_eq_getElem _ _ (by rw [length_take, length_drop, hr]; omega), getElem_take, getElem_drop,
    getD_eq_getElem _ _ (by rw [hr]; omega)]

theorem block_WF [Field K] (n i a m c : Nat) (A : Mat K) (hA : A.WF) (h1 : A.nrows = n) (h2 : A.ncols = n)
    (hi : i + m = n) (ha : a + c ≤ n) : (A.block i a (a + c)).WF ∧ (A.block i a (a + c)).nrows = m ∧
      (A.block i a (a + c)).ncols = c := by
  refine ⟨⟨?_, ?_⟩, ?_, ?_⟩
  · simp [Mat.block, hA.1]
  · intro row hrow
    simp only [Mat.block, mem_map] at hrow ⊢
    obtain ⟨b, hb, rfl⟩ := hrow
    have := (hA.2 b (mem_of_mem_drop hb)).trans h2
    rw [length_take, length_drop, this]
    omega
  · simp only [Mat.block]; omega
  · simp only [Mat.block]; omega

/-! ### The theorem -/

/-- What a successful fit went through. -/
theorem tls_fit_ok [Field K] (svd : Mat K → Except Err (Svd K)) (solve : Mat K → Mat K → Except Err (Mat K))
    (s s' : Tls K) (D Z : NdArg K) (h : Tls.fit svd solve s D Z = (s', .ok ())) :
    ∃ D0 Z0 u X, templateFit D Z = .ok (D0, Z0) ∧ D0.ncols + Z0.nrows ≤ D0.nrows ∧
      svd ⟨D0.nrows, D0.ncols + Z0.nrows, zipWith (· ++ ·) D0.rows Z0.t.rows⟩ = .ok u ∧
      solve (u.PsiT.block D0.ncols D0.ncols (D0.ncols + Z0.nrows)) (u.PsiT.block D0.ncols 0 D0.ncols) = .ok X ∧
      s' = ⟨some (D0, Z0), some (X.smul (-1),
        (((matMul (Z0.nrows + D0.ncols)
          (u.Phi.rows.map fun row => zipWith (· * ·) (row.drop D0.ncols) (u.s.drop D0.ncols))
          (zipWith (· ++ ·) (u.PsiT.block D0.ncols D0.ncols (D0.ncols + Z0.nrows)).rows
            (u.PsiT.block D0.ncols 0 D0.ncols).rows)).map (vsmul (-1))).map sumSq).sum)⟩ := by
  unfold Tls.fit at h
  cases ht : templateFit D Z with
  | error e => simp [ht] at h
  | ok p =>
    obtain ⟨D0, Z0⟩ := p
    simp only [ht] at h
    by_cases hk : D0.nrows < D0.ncols + Z0.nrows
    · simp [hk] at h
    · rw [if_neg hk] at h
      cases hu : svd ⟨D0.nrows, D0.ncols + Z0.nrows, zipWith (· ++ ·) D0.rows Z0.t.rows⟩ with
      | error e => simp [hu] at h
      | ok u =>
        simp only [hu] at h
        cases hX : solve (u.PsiT.block D0.ncols D0.ncols (D0.ncols + Z0.nrows)) (u.PsiT.block D0.ncols 0 D0.ncols) with
        | error e => simp [hX] at h
        | ok X =>
          simp only [hX, Prod.mk.injEq, and_true] at h
          exact ⟨D0, Z0, u, X, rfl, by omega, hu, hX, h.symm⟩

theorem frob_smul_list [Field K] (A : List (List K)) : ((A.map (vsmul (-1))).map sumSq).sum = (A.map sumSq).sum := by
  rw [map_map]
  congr 1
  refine map_congr_left fun a _ => ?_
  simp [sumSq, vsmul, Function.comp_def]

theorem eye_WF [Semiring K] (n : Nat) : (Mat.eye K n).WF := by
  constructor
  · simp [Mat.eye, eye]
  · intro row hrow
    simp only [Mat.eye, eye, mem_map] at hrow ⊢
    obtain ⟨i, _, rfl⟩ := hrow
    simp

theorem sorted_toV [Field K] [LinearOrder K] (n : Nat) (s : List K) (hs : s.length = n)
    (h : s.Pairwise (· ≥ ·)) (i j : Fin n) (hij : i ≤ j) : toV n s j ≤ toV n s i := by
  rcases eq_or_lt_of_le hij with rfl | hlt
  · exact le_rfl
  · simp only [toV]
    rw [getD_eq_getElem s _ (by rw [hs]; exact j.2), getD_eq_getElem s _ (by rw [hs]; exact i.2)]
    exact pairwise_iff_getElem.mp h i j _ _ hlt

theorem nonneg_toV [Field K] [LinearOrder K] (n : Nat) (s : List K) (hs : s.length = n)
    (h : ∀ x ∈ s, 0 ≤ x) (i : Fin n) : 0 ≤ toV n s i := by
  simp only [toV]
  rw [getD_eq_getElem s _ (by rw [hs]; exact i.2)]
  exact h _ (getElem_mem _)

/-- The reported squared error is the sum of the squares of the trailing singular values. -/
theorem tls_reported [Field K] (k d r : Nat) (u : Svd K) (hW : u.Phi.WF) (h1 : u.Phi.nrows = k)
    (h2 : u.Phi.ncols = d + r) (hs : u.s.length = d + r) (ZZ DZ : Mat K) (zW : ZZ.WF) (zr : ZZ.nrows = r)
    (zc : ZZ.ncols = r) (dW : DZ.WF) (dr : DZ.nrows = r) (dc : DZ.ncols = d)
    (Psi : Matrix (Fin (d + r)) (Fin (d + r)) K)
    (hPhi : (toM k (d + r) u.Phi.rows).transpose * toM k (d + r) u.Phi.rows = 1)
    (hPsi : Psi * Psi.transpose = 1)
    (hZ : ∀ i j, toM r r ZZ.rows i j = Psi (Fin.natAdd d i) (Fin.natAdd d j))
    (hD : ∀ i j, toM r d DZ.rows i j = Psi (Fin.natAdd d i) (Fin.castAdd r j)) :
    (((matMul (r + d) (u.Phi.rows.map fun row => zipWith (· * ·) (row.drop d) (u.s.drop d))
      (zipWith (· ++ ·) ZZ.rows DZ.rows)).map (vsmul (-1))).map sumSq).sum
      = ∑ j : Fin r, toV (d + r) u.s (Fin.natAdd d j) ^ 2 := by
  have zl : ZZ.rows.length = r := zW.1.trans zr
  have dl : DZ.rows.length = r := dW.1.trans dr
  have pl : u.Phi.rows.length = k := hW.1.trans h1
  have wr : ∀ w ∈ zipWith (· ++ ·) ZZ.rows DZ.rows, w.length = r + d := by
    intro w hw
    obtain ⟨i, hi, rfl⟩ := mem_iff_getElem.mp hw
    rw [getElem_zipWith, length_append, zW.2 _ (getElem_mem _), dW.2 _ (getElem_mem _), zc, dc]
  have pr : ∀ w ∈ u.Phi.rows.map (fun row => zipWith (· * ·) (row.drop d) (u.s.drop d)), w.length = r := by
    intro w hw
    obtain ⟨a, ha, rfl⟩ := mem_map.mp hw
    rw [length_zipWith, length_drop, length_drop, hs, hW.2 a ha, h2]
    omega
  rw [frob_smul_list, frob_toM k (r + d) _ (by rw [matMul, length_map, length_map, pl])
    (fun a ha => by obtain ⟨b, _, rfl⟩ := mem_map.mp ha; exact length_vecMat _ _ _ wr),
    toM_matMul k r (r + d) _ _ (by rw [length_map, pl]) pr (by rw [length_zipWith, zl, dl, min_self]) wr]
  have hc := toM_hcat r r d ZZ.rows DZ.rows zl dl fun a ha => (zW.2 a ha).trans zc
  have : toM r (r + d) (zipWith (· ++ ·) ZZ.rows DZ.rows) = hM (toM r r ZZ.rows) (toM r d DZ.rows) := by
    apply hM_ext
    · intro i j; rw [(hc i).1, hM_left]
    · intro i j; rw [(hc i).2, hM_right]
  rw [this]
  refine reported_frob k d r (toM k (d + r) u.Phi.rows) _ Psi hPhi hPsi _ _ _ hZ hD ?_
  intro i j
  have hi : (i : Nat) < u.Phi.rows.length := pl ▸ i.2
  have hl : u.Phi.rows[(i : Nat)].length = d + r := (hW.2 _ (getElem_mem _)).trans h2
  rw [toM_apply, toM_apply, getD_eq_getElem (map _ _) _ (by rw [length_map]; exact hi), getElem_map,
    getD_eq_getElem u.Phi.rows _ hi, toV,
    getD_eq_getElem (zipWith _ _ _) _ (by rw [length_zipWith, length_drop, length_drop, hs, hl]; omega),
    getElem_zipWith, getElem_drop, getElem_drop]
  simp only [Fin.val_natAdd]
  rw [getD_eq_getElem _ _ (by rw [hl]; omega), getD_eq_getElem u.s _ (by rw [hs]; omega)]

/-- **C27.** After a successful fit, `solve()` returns an `O` for which some perturbation of the data
solves the problem exactly, the reported error is the size of that perturbation, and no perturbation
for which any operator matrix solves the problem exactly is smaller. -/
theorem C27_total_least_squares [Field K] [LinearOrder K] [IsStrictOrderedRing K]
    (svd : Mat K → Except Err (Svd K)) (solve : Mat K → Mat K → Except Err (Mat K)) (hsvd : TallSvd svd)
    (hsolve : SquareSolve solve) (s s' : Tls K) (D Z : NdArg K) (D0 Z0 : Mat K)
    (hDZ : templateFit D Z = .ok (D0, Z0)) (hD : D0.WF) (hZ : Z0.WF)
    (h : Tls.fit svd solve s D Z = (s', .ok ())) :
    ∃ O err, s'.solve = .ok O ∧ s'.sol = some (O, err) ∧
      (∃ dD dZ, TlsFeasible D0 Z0 O dD dZ ∧ err = dD.sqNorm + dZ.sqNorm) ∧
      ∀ O' dD dZ, TlsFeasible D0 Z0 O' dD dZ → err ≤ dD.sqNorm + dZ.sqNorm := by
  obtain ⟨D1, Z1, u, X, ht, hk, hu, hX, rfl⟩ := tls_fit_ok svd solve s s' D Z h
  rw [hDZ] at ht
  obtain ⟨rfl, rfl⟩ := Prod.mk.inj (Except.ok.inj ht)
  have hZk : Z0.ncols = D0.nrows := (templateFit_ok hDZ).2
  obtain ⟨k, hkk⟩ : ∃ k, D0.nrows = k := ⟨_, rfl⟩
  obtain ⟨d, hd⟩ : ∃ d, D0.ncols = d := ⟨_, rfl⟩
  obtain ⟨r, hr⟩ : ∃ r, Z0.nrows = r := ⟨_, rfl⟩
  rw [hkk] at hZk
  rw [hd, hr] at hX
  rw [hkk, hd, hr] at hk hu
  have hZt : Z0.t.rows.length = k := by simp [Mat.t, transpose, hZk]
  have hCW : (⟨k, d + r, zipWith (· ++ ·) D0.rows Z0.t.rows⟩ : Mat K).WF := by
    constructor
    · simp only [length_zipWith, hD.1, hkk, hZt, min_self]
    · intro row hrow
      obtain ⟨i, hi, rfl⟩ := mem_iff_getElem.mp hrow
      rw [getElem_zipWith, length_append, hD.2 _ (getElem_mem _), hd]
      have := transpose_rows Z0.ncols Z0.rows _ (getElem_mem (l := Z0.t.rows) (by
        simp only [length_zipWith] at hi; omega : i < Z0.t.rows.length))
      rw [this, hZ.1, hr]
  obtain ⟨hS, hsl, hsort, hnn⟩ := hsvd _ u hCW hk hu
  simp only at hsl
  obtain ⟨hPhi, hPsi, hC⟩ := svd_matrices _ u hS hCW k (d + r) rfl rfl hsl
  have psi1 : u.PsiT.nrows = d + r := by rw [hS.psiRows, hsl]
  have psi2 : u.PsiT.ncols = d + r := hS.psiCols
  obtain ⟨zW, zr, zc⟩ := block_WF (d + r) d d r r u.PsiT hS.psiWF psi1 psi2 rfl le_rfl
  obtain ⟨dW, dr, dc⟩ := block_WF (d + r) d 0 r d u.PsiT hS.psiWF psi1 psi2 rfl (by omega)
  rw [Nat.zero_add] at dW dr dc
  have eZ := toM_block (d + r) d d r r u.PsiT hS.psiWF psi1 psi2 rfl le_rfl
  have eD := toM_block (d + r) d 0 r d u.PsiT hS.psiWF psi1 psi2 rfl (by omega)
  simp only [Nat.zero_add] at eD
  obtain ⟨hXs, Y, hYs⟩ := hsolve _ _ X zW (zr.trans zc.symm) dW (dr.trans zr.symm) hX
  have hZZ : ∀ i j, toM r r (u.PsiT.block d d (d + r)).rows i j
      = toM (d + r) (d + r) u.PsiT.rows (Fin.natAdd d i) (Fin.natAdd d j) := fun i j => eZ i j
  have hDD : ∀ i j, toM r d (u.PsiT.block d 0 d).rows i j
      = toM (d + r) (d + r) u.PsiT.rows (Fin.natAdd d i) (Fin.castAdd r j) := fun i j => eD i j
  have hXM := isSolution_toM r d _ _ X zW zr zc dW dr dc hXs
  have hYM : toM r r (u.PsiT.block d d (d + r)).rows * toM r r Y.rows = 1 := by
    rw [isSolution_toM r r _ _ Y zW zr zc (eye_WF _) zr zr hYs]
    have zr' : u.PsiT.nrows - d = r := zr
    change toM r r (eye (u.PsiT.nrows - d)) = 1
    rw [zr']
    exact toM_eye r
  have xl : X.rows.length = r := by rw [hXs.wf.1, hXs.rows, zc]
  have xr : ∀ a ∈ X.rows, a.length = d := fun a ha => by rw [hXs.wf.2 a ha, hXs.cols, dc]
  have hO : toM r d (X.smul (-1)).rows = -toM r d X.rows := by
    ext i j
    have hi : (i : Nat) < X.rows.length := xl ▸ i.2
    rw [Matrix.neg_apply, toM_apply, toM_apply, Mat.smul]
    simp only
    rw [getD_eq_getElem (map _ _) _ (by rw [length_map]; exact hi), getElem_map, getD_eq_getElem X.rows _ hi]
    have hj : (j : Nat) < X.rows[(i : Nat)].length := by rw [xr _ (getElem_mem _)]; exact j.2
    rw [vsmul, getD_eq_getElem _ _ (by rw [length_map]; exact hj), getElem_map, getD_eq_getElem _ _ hj,
      neg_one_mul]
  have hCm := toM_vstack k d r D0 Z0 hD hZ hkk hd hr hZk
  simp only at hC
  rw [hCm] at hC
  have herr := tls_reported k d r u hS.phiWF (hS.phiRows.trans rfl) (hS.phiCols.trans hsl) hsl _ _ zW zr zc dW dr dc
    _ hPhi hPsi hZZ hDD
  have hsolves := tail_solves k d r _ _ _ _ hPsi hC _ _ _ _ hZZ hDD hXM hYM
  have hfrob := tail_frob k d r _ (toV (d + r) u.s) _ hPhi hPsi
  rw [hd, hr]
  refine ⟨X.smul (-1), _, rfl, rfl, ?_, ?_⟩
  · rw [herr, ← hfrob]
    generalize -(toM k (d + r) u.Phi.rows * Matrix.diagonal (tailOf d r (toV (d + r) u.s))
      * toM (d + r) (d + r) u.PsiT.rows) = E at hsolves ⊢
    have hE : E = hM (Matrix.of fun i j => E i (Fin.castAdd r j)) (Matrix.of fun i j => E i (Fin.natAdd d j)) := by
      apply hM_ext <;> intro i j <;> simp only [hM_left, hM_right, Matrix.of_apply]
    generalize (Matrix.of fun (i : Fin k) (j : Fin d) => E i (Fin.castAdd r j)) = E1 at hE
    generalize (Matrix.of fun (i : Fin k) (j : Fin r) => E i (Fin.natAdd d j)) = E2 at hE
    subst hE
    refine ⟨⟨k, d, ofM k d E1⟩, ⟨r, k, ofM r k E2.transpose⟩, ?_, ?_⟩
    · have oW : (X.smul (-1)).WF := by
        refine ⟨by simp [Mat.smul, hXs.wf.1], ?_⟩
        intro row hrow
        simp only [Mat.smul, mem_map] at hrow ⊢
        obtain ⟨a, ha, rfl⟩ := hrow
        rw [vsmul, length_map, hXs.wf.2 a ha]
      have w1 : (⟨k, d, ofM k d E1⟩ : Mat K).WF := ⟨ofM_length _ _ _, ofM_rows _ _ _⟩
      have w2 : (⟨r, k, ofM r k E2.transpose⟩ : Mat K).WF := ⟨ofM_length _ _ _, ofM_rows _ _ _⟩
      refine ⟨oW, hXs.rows.trans (zc.trans hr.symm), hXs.cols.trans (dc.trans hd.symm), w1, hkk.symm, hd.symm, w2,
        hr.symm, hZk.symm, ?_⟩
      refine (feasible_iff_toM k d r D0 Z0 _ _ _ hD hZ oW w1 w2 hkk hd hr (hXs.rows.trans zc)
        (hXs.cols.trans dc) rfl rfl rfl).2 ?_
      simp only
      rw [toM_ofM, toM_ofM, Matrix.transpose_transpose, hO, feasible_null]
      exact hsolves
    · rw [Mat.sqNorm, Mat.sqNorm, frob_toM k d _ (ofM_length _ _ _) (ofM_rows _ _ _),
        frob_toM r k _ (ofM_length _ _ _) (ofM_rows _ _ _), toM_ofM, toM_ofM, frob_transpose, frob_hM]
  · intro O' dD dZ hf
    rw [herr]
    have hf' := (feasible_iff_toM k d r D0 Z0 O' dD dZ hD hZ hf.oWF hf.dWF hf.zWF hkk hd hr (hf.oRows.trans hr)
      (hf.oCols.trans hd) (hf.dRows.trans hkk) (hf.dCols.trans hd) (hf.zRows.trans hr)).1 hf.eq
    rw [feasible_null] at hf'
    have hlow := tls_lower k d r _ _ _ (toV (d + r) u.s) _ hPhi hPsi hC (sorted_toV _ _ hsl hsort)
      (nonneg_toV _ _ hsl hnn) _ (gram_unit d r _ fun i j => by rw [hM_right, Matrix.neg_apply, Matrix.one_apply]; split <;> simp) hf'
    rw [frob_hM, frob_transpose] at hlow
    rw [Mat.sqNorm, Mat.sqNorm, frob_toM k d _ (by rw [hf.dWF.1, hf.dRows, hkk]) (fun a ha => by rw [hf.dWF.2 a ha, hf.dCols, hd]),
      frob_toM r k _ (by rw [hf.zWF.1, hf.zRows, hr]) (fun a ha => by rw [hf.zWF.2 a ha, hf.zCols, hZk])]
    exact hlow

/-- The fit answers whenever there are at least `d + r` snapshots and both library calls answer. -/
theorem C27_fits [Field K] (svd : Mat K → Except Err (Svd K)) (solve : Mat K → Mat K → Except Err (Mat K))
    (s : Tls K) (D Z : NdArg K) (D0 Z0 X : Mat K) (u : Svd K) (hDZ : templateFit D Z = .ok (D0, Z0))
    (hk : D0.ncols + Z0.nrows ≤ D0.nrows)
    (hu : svd ⟨D0.nrows, D0.ncols + Z0.nrows, zipWith (· ++ ·) D0.rows Z0.t.rows⟩ = .ok u)
    (hX : solve (u.PsiT.block D0.ncols D0.ncols (D0.ncols + Z0.nrows)) (u.PsiT.block D0.ncols 0 D0.ncols) = .ok X) :
    (Tls.fit svd solve s D Z).2 = .ok () := by
  unfold Tls.fit
  simp only [hDZ]
  rw [if_neg (by omega)]
  simp only [hu, hX]

/-- With fewer than `d + r` snapshots `fit` raises `ValueError`, after it has stored the new data; the
solution of an earlier fit stays, and `solve()` then returns it for the new data. -/
theorem C27_underdetermined [Field K] (svd : Mat K → Except Err (Svd K))
    (solve : Mat K → Mat K → Except Err (Mat K)) (s : Tls K) (D Z : NdArg K) (D0 Z0 : Mat K)
    (hDZ : templateFit D Z = .ok (D0, Z0)) (hk : D0.nrows < D0.ncols + Z0.nrows) :
    Tls.fit svd solve s D Z = (⟨some (D0, Z0), s.sol⟩, .error .value) := by
  unfold Tls.fit
  simp only [hDZ]
  rw [if_pos hk]

/-- Data of the wrong dimensions are rejected and change nothing. -/
theorem C27_misshaped [Field K] (svd : Mat K → Except Err (Svd K))
    (solve : Mat K → Mat K → Except Err (Mat K)) (s : Tls K) (D Z : NdArg K) (e : Err)
    (hDZ : templateFit D Z = .error e) : Tls.fit svd solve s D Z = (s, .error e) := by
  unfold Tls.fit
  simp only [hDZ]

/-- A failing fit never makes an untrained solver answer, and never changes an earlier solution. -/
theorem C27_failed_fit [Field K] (svd : Mat K → Except Err (Svd K))
    (solve : Mat K → Mat K → Except Err (Mat K)) (s : Tls K) (D Z : NdArg K) (e : Err)
    (h : (Tls.fit svd solve s D Z).2 = .error e) : (Tls.fit svd solve s D Z).1.sol = s.sol := by
  unfold Tls.fit at h ⊢
  cases ht : templateFit D Z with
  | error e => rfl
  | ok p =>
    obtain ⟨D0, Z0⟩ := p
    simp only [ht] at h ⊢
    by_cases hk : D0.nrows < D0.ncols + Z0.nrows
    · rw [if_pos hk]
    · rw [if_neg hk] at h ⊢
      cases hu : svd ⟨D0.nrows, D0.ncols + Z0.nrows, zipWith (· ++ ·) D0.rows Z0.t.rows⟩ with
      | error e => rfl
      | ok u =>
        simp only [hu] at h ⊢
        cases hX : solve (u.PsiT.block D0.ncols D0.ncols (D0.ncols + Z0.nrows)) (u.PsiT.block D0.ncols 0 D0.ncols) with
        | error e => rfl
        | ok X => simp only [hX] at h; cases h

/-- The solver after a sequence of calls of `fit`, whether they raise or not. -/
def Tls.afterFits [Field K] (svd : Mat K → Except Err (Svd K)) (solve : Mat K → Mat K → Except Err (Mat K))
    (s : Tls K) (calls : List (NdArg K × NdArg K)) : Tls K :=
  calls.foldl (fun s c => (Tls.fit svd solve s c.1 c.2).1) s

/-- **C27, histories.** After any calls of `fit` that all raise, a new solver still refuses to answer; and calls
that raise after a successful one leave its answer unchanged. A solver without data never answers. -/
theorem C27_history [Field K] (svd : Mat K → Except Err (Svd K)) (solve : Mat K → Mat K → Except Err (Mat K))
    (s : Tls K) (calls : List (NdArg K × NdArg K))
    (hfail : ∀ c ∈ calls, ∀ s' : Tls K, (Tls.fit svd solve s' c.1 c.2).2 ≠ .ok ()) :
    (s.sol = none → (s.afterFits svd solve calls).solve = .error .attribute) ∧
    (∀ O, s.solve = .ok O → (s.afterFits svd solve calls).solve = .ok O) ∧
    (s.data = none → s.solve = .error .attribute) := by
  have key : ∀ s : Tls K, (s.afterFits svd solve calls).sol = s.sol ∧
      (s.data.isSome → (s.afterFits svd solve calls).data.isSome) := by
    induction calls with
    | nil => exact fun s => ⟨rfl, id⟩
    | cons c cs ih =>
      intro s
      obtain ⟨i1, i2⟩ := ih (fun d hd => hfail d (mem_cons_of_mem _ hd)) (Tls.fit svd solve s c.1 c.2).1
      have hc : (Tls.fit svd solve s c.1 c.2).1.sol = s.sol := by
        cases hx : (Tls.fit svd solve s c.1 c.2).2 with
        | error e => exact C27_failed_fit svd solve s c.1 c.2 e hx
        | ok _ => exact absurd hx (hfail c mem_cons_self s)
      refine ⟨i1.trans hc, fun hd => i2 ?_⟩
      unfold Tls.fit
      split
      · exact hd
      · simp only
        repeat' split
        all_goals rfl
  obtain ⟨k1, k2⟩ := key s
  refine ⟨fun h0 => ?_, fun O hO => ?_, fun h0 => by simp [Tls.solve, h0]⟩
  · rw [Tls.solve, k1, h0]
    cases (s.afterFits svd solve calls).data <;> rfl
  · obtain ⟨d, so⟩ := s
    cases d with
    | none => cases hO
    | some d =>
      cases so with
      | none => cases hO
      | some x =>
        obtain ⟨y, hy⟩ := Option.isSome_iff_exists.1 (k2 rfl)
        rw [Tls.solve, k1, hy]
        exact hO

/-! ### A concrete case

`[D Zᵀ] = diag(5, 1) Ψᵀ` with `Ψᵀ` the rotation with rows `(3/5, 4/5)` and `(-4/5, 3/5)`. -/

/-- The decomposition of the one matrix of the example; other matrices are refused. -/
def tlsExSvd (A : Mat ℚ) : Except Err (Svd ℚ) :=
  if A = ⟨2, 2, [[3, 4], [-4/5, 3/5]]⟩ then
    .ok ⟨⟨2, 2, [[1, 0], [0, 1]]⟩, [5, 1], ⟨2, 2, [[3/5, 4/5], [-4/5, 3/5]]⟩⟩
  else .error .linalg

/-- Solving `1 × 1` systems; other systems are refused. -/
def tlsExSolve (A B : Mat ℚ) : Except Err (Mat ℚ) :=
  match A, B with
  | ⟨1, 1, [[a]]⟩, ⟨1, 1, [[b]]⟩ => if a = 0 then .error .linalg else .ok ⟨1, 1, [[b / a]]⟩
  | _, _ => .error .linalg

theorem tlsExSvd_tall : TallSvd tlsExSvd := by
  intro A u _ _ h
  unfold tlsExSvd at h
  split at h
  · rename_i hA
    subst hA
    obtain rfl := Except.ok.inj h
    refine ⟨⟨by decide +kernel, by decide +kernel, rfl, rfl, rfl, rfl, ?_, ?_, ?_⟩, rfl, by decide +kernel,
      by decide +kernel⟩
    · intro x hx
      match x, hx with
      | [a, b], _ =>
        simp only [matVec, dot, map, zipWith, sum_cons, sum_nil]
        congr 1
        · ring
        · congr 1; ring
    · intro v w hv hw
      match v, hv, w, hw with
      | [a, b], _, [c, d], _ =>
        simp only [matVec, dot, map, zipWith, sum_cons, sum_nil]
        ring
    · intro v hv
      match v, hv with
      | [a, b], _ =>
        simp only [matVec, dot, map, zipWith, sum_cons, sum_nil, vecMat, vsmul, vadd, foldl, replicate]
        congr 1
        · ring
        · congr 1; ring
  · cases h

theorem tlsExSolve_square : SquareSolve tlsExSolve := by
  intro A B X hA _ hB _ h
  unfold tlsExSolve at h
  split at h
  · rename_i _ _ a b _ _
    split at h
    · cases h
    · rename_i ha
      obtain rfl := Except.ok.inj h
      refine ⟨⟨by simp [Mat.WF], rfl, rfl, ?_⟩, ⟨1, 1, [[1 / a]]⟩, ⟨by simp [Mat.WF], rfl, rfl, ?_⟩⟩
      · intro j hj
        obtain rfl : j = 0 := by simp only at hj; omega
        simp only [matVec, col, dot, map, zipWith, sum_cons, sum_nil, getD_cons_zero]
        rw [mul_div_cancel₀ _ ha, add_zero]
      · intro j hj
        obtain rfl : j = 0 := by simp only [Mat.eye] at hj; omega
        simp [matVec, col, dot, Mat.eye, eye, ha]
  · cases h

/-- The hypotheses of `C27_total_least_squares` are met: the fit answers `O = 4/3` with error `1`. -/
example : (Tls.fit tlsExSvd tlsExSolve ⟨none, none⟩ (.mat ⟨2, 1, [[3], [-4/5]]⟩) (.vec [4, 3/5])).2 = .ok ()
    ∧ (Tls.fit tlsExSvd tlsExSolve ⟨none, none⟩ (.mat ⟨2, 1, [[3], [-4/5]]⟩) (.vec [4, 3/5])).1.sol
      = some (⟨1, 1, [[4/3]]⟩, 1) := by decide +kernel

/-- The stale answer: after a second fit that raises, `solve()` still gives the first operator matrix. -/
theorem C27_stale :
    let s1 := (Tls.fit tlsExSvd tlsExSolve ⟨none, none⟩ (.mat ⟨2, 1, [[3], [-4/5]]⟩) (.vec [4, 3/5])).1
    let s2 := Tls.fit tlsExSvd tlsExSolve s1 (.mat ⟨1, 1, [[1]]⟩) (.vec [7])
    s2.2 = .error .value ∧ s2.1.data = some (⟨1, 1, [[1]]⟩, ⟨1, 1, [[7]]⟩) ∧
      s2.1.solve = .ok ⟨1, 1, [[4/3]]⟩ := by decide +kernel

/-- Too few snapshots are refused whatever happened before. -/
example : ∀ c ∈ [((.mat ⟨1, 1, [[1]]⟩, .vec [7]) : NdArg ℚ × NdArg ℚ)], ∀ s' : Tls ℚ,
    (Tls.fit tlsExSvd tlsExSolve s' c.1 c.2).2 ≠ .ok () := by
  intro c hc s'
  rw [mem_singleton.1 hc, C27_underdetermined tlsExSvd tlsExSolve s' _ _ ⟨1, 1, [[1]]⟩ ⟨1, 1, [[7]]⟩ (by decide +kernel) (by decide)]
  simp

end Opinf
