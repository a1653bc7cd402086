import Verif.Props.LstsqL2

/-!
# C23, C24, C25, C28, C29: `TikhonovSolver` and `TikhonovDecoupledSolver`
-/

namespace Opinf

open List

variable {K : Type}

/-! ### Shapes, columns and stacked systems -/

/-- The stacked matrix `[D; Γ]`. -/
def stackMat (D G : Mat K) : Mat K := ⟨D.nrows + G.nrows, D.ncols, D.rows ++ G.rows⟩

/-- The padded right-hand side `[Zᵀ; 0]` with `d` zero rows. -/
def padRhs [Zero K] (d : Nat) (Z : Mat K) : Mat K :=
  ⟨Z.ncols + d, Z.nrows, transpose Z.ncols Z.rows ++ replicate d (replicate Z.nrows 0)⟩

/-- The normal matrix `DᵀD + ΓᵀΓ`. -/
def normalMat [Semiring K] (D G : Mat K) : Mat K :=
  ⟨D.ncols, D.ncols, zipWith vadd (matMul D.ncols (transpose D.ncols D.rows) D.rows)
    (matMul G.ncols (transpose G.ncols G.rows) G.rows)⟩

/-- The normal right-hand side `DᵀZᵀ`. -/
def normalRhs [Semiring K] (D Z : Mat K) : Mat K :=
  ⟨D.ncols, Z.nrows, matMul Z.nrows (transpose D.ncols D.rows) (transpose Z.ncols Z.rows)⟩

theorem tikPre_eq [Semiring K] (D Z : Mat K) :
    tikPre D Z = ⟨padRhs D.ncols Z, D.t.mul D, normalRhs D Z⟩ := rfl

theorem Mat.t_wf [Zero K] (A : Mat K) (h : A.WF) : A.t.WF :=
  ⟨by simp [Mat.t, transpose], fun row hrow => by
    rw [transpose_rows A.ncols A.rows row hrow, h.1]; rfl⟩

theorem Mat.t_rows_eq [Zero K] (X : Mat K) : X.t.rows = (range X.ncols).map (col X.rows) := rfl

theorem col_transpose [Zero K] (A : List (List K)) (c j : Nat) (hA : ∀ a ∈ A, a.length = c)
    (hj : j < A.length) : col (transpose c A) j = A[j] := by
  have hl : A[j].length = c := hA _ (getElem_mem hj)
  apply ext_getElem
  · simp [col, transpose, hl]
  · intro i h1 h2
    simp only [col, transpose, map_map, getElem_map, getElem_range, Function.comp_apply,
      getD_eq_getElem?_getD, getElem?_map, getElem?_eq_getElem hj, Option.map_some, Option.getD_some]
    rw [getElem?_eq_getElem h2, Option.getD_some]

theorem col_padRhs [Zero K] (d : Nat) (Z : Mat K) (hZ : Z.WF) (j : Nat) (hj : j < Z.rows.length) :
    col (padRhs d Z).rows j = Z.rows[j] ++ replicate d 0 := by
  have e : col (padRhs d Z).rows j = col (transpose Z.ncols Z.rows) j ++
      col (replicate d (replicate Z.nrows 0)) j := by simp [col, padRhs]
  rw [e, col_transpose _ _ _ hZ.2 hj]
  congr 1
  simp [col, getD_eq_getElem?_getD, getElem?_replicate]
  right; split <;> rfl

theorem col_matMul [CommSemiring K] (c : Nat) (A B : List (List K)) (hB : ∀ b ∈ B, b.length = c) (j : Nat)
    (hj : j < c) : col (matMul c A B) j = matVec A (col B j) := by
  simp only [col, matMul, map_map, matVec]
  apply map_congr_left
  intro a _
  rw [Function.comp_apply, ← dot_unit c j _ (length_vecMat c a B hB) hj, dot_vecMat c a B _ hB]
  congr 1
  apply map_congr_left
  intro b hb
  exact dot_unit c j b (hB b hb) hj

theorem matVec_zipWith_vadd [CommSemiring K] (A B : List (List K)) (x : List K) (d : Nat)
    (hA : ∀ a ∈ A, a.length = d) (hB : ∀ a ∈ B, a.length = d) :
    matVec (zipWith vadd A B) x = vadd (matVec A x) (matVec B x) := by
  simp only [matVec, vadd, map_zipWith, zipWith_map]
  induction A generalizing B with
  | nil => simp
  | cons a A ih =>
    cases B with
    | nil => simp
    | cons b B =>
      rw [zipWith_cons_cons, zipWith_cons_cons, ih B (fun a ha => hA a (by simp [ha]))
        (fun a ha => hB a (by simp [ha]))]
      congr 1
      exact dot_vadd_left a b x (by rw [hA a (by simp), hB b (by simp)])

/-- `(DᵀD + ΓᵀΓ) x` tested against `y`. -/
theorem dot_normalMat [CommRing K] (D G : Mat K) (hD : D.WF) (hG : G.WF) (hGc : G.ncols = D.ncols)
    (x y : List K) :
    dot y (matVec (normalMat D G).rows x) =
      dot (matVec D.rows y) (matVec D.rows x) + dot (matVec G.rows y) (matVec G.rows x) := by
  have h1 := matMul_rows D.ncols (transpose D.ncols D.rows) D.rows hD.2
  have h2 := matMul_rows G.ncols (transpose G.ncols G.rows) G.rows hG.2
  have e : matVec (normalMat D G).rows x = _ :=
    matVec_zipWith_vadd _ _ x D.ncols h1 (hGc ▸ h2)
  rw [e, matVec_matMul _ _ _ _ hD.2, matVec_matMul _ _ _ _ hG.2,
    dot_vadd_right _ _ _ (by simp [transpose, hGc]), ← dot_matVec_left _ _ _ _ hD.2,
    ← dot_matVec_left _ _ _ _ hG.2]

theorem tikSolve_lstsq [Semiring K] (lstsq posSolve : Mat K → Mat K → Except Err (Mat K))
    (D G Zp A B : Mat K) (h1 : G.ncols = D.ncols) (h2 : D.nrows + G.nrows = Zp.nrows) :
    tikSolve lstsq posSolve .lstsq D G Zp A B = lstsq (stackMat D G) Zp := by
  have e1 : D.vstack G = .ok (stackMat D G) := by
    rw [Mat.vstack, if_pos h1.symm]; rfl
  simp only [tikSolve, e1, bind, Except.bind]
  rw [if_neg]
  simpa [stackMat] using h2

theorem tikSolve_normal [Semiring K] (lstsq posSolve : Mat K → Mat K → Except Err (Mat K))
    (D G Zp B : Mat K) (h1 : G.ncols = D.ncols) (h2 : D.ncols = B.nrows) :
    tikSolve lstsq posSolve .normal D G Zp (D.t.mul D) B = posSolve (normalMat D G) B := by
  have e1 : (D.t.mul D).addB (G.t.mul G) = .ok (normalMat D G) := by
    rw [Mat.addB, if_pos (by simp [Mat.mul, Mat.t, h1])]; rfl
  simp only [tikSolve, e1, bind, Except.bind]
  rw [if_neg]
  simpa [normalMat] using h2

section

variable [Field K]

theorem objTik_stack (D G : Mat K) (hD : D.WF) (z o : List K) (hz : z.length = D.nrows)
    (d : Nat) (hd : G.rows.length = d) :
    sumSq (vsub (matVec (stackMat D G).rows o) (z ++ replicate d 0)) = objTik D G z o := by
  rw [stackMat, matVec_append, vsub_append _ _ _ _ (by simp [hz, hD.1]), sumSq_append,
    vsub_replicate_zero _ _ (by simp [hd])]
  rfl

/-- Excess of the Tikhonov objective over its value at a solution of the normal equations. -/
theorem objTik_excess (D G : Mat K) (hD : D.WF) (z o y : List K) (hz : z.length = D.nrows)
    (ho : o.length = D.ncols) (hy : y.length = D.ncols)
    (hn : ∀ y, y.length = D.ncols → dot (matVec D.rows y) (vsub (matVec D.rows o) z) +
      dot (matVec G.rows y) (matVec G.rows o) = 0) :
    objTik D G z y = objTik D G z o +
      (sumSq (matVec D.rows (vsub y o)) + sumSq (matVec G.rows (vsub y o))) :=
  pythagoras (matVec D.rows) (matVec G.rows) D.ncols D.nrows G.rows.length
    (fun y _ => by rw [length_matVec, hD.1]) (fun y _ => by rw [length_matVec])
    (fun a b ha hb => matVec_vsub _ _ _ (ha.trans hb.symm))
    (fun a b ha hb => matVec_vsub _ _ _ (ha.trans hb.symm)) z o y hz ho hy hn

/-- A solution of `(DᵀD + ΓᵀΓ) o = Dᵀz` satisfies the weak normal equations. -/
theorem normal_weak (D G : Mat K) (hD : D.WF) (hG : G.WF) (hGc : G.ncols = D.ncols) (z o : List K)
    (hz : z.length = D.nrows)
    (h : matVec (normalMat D G).rows o = matVec (transpose D.ncols D.rows) z) (y : List K) :
    dot (matVec D.rows y) (vsub (matVec D.rows o) z) +
      dot (matVec G.rows y) (matVec G.rows o) = 0 := by
  have e := dot_normalMat D G hD hG hGc o y
  rw [h, ← dot_matVec_left _ _ _ _ hD.2] at e
  rw [dot_vsub_right _ _ _ (by rw [length_matVec, hD.1, hz]), e]
  ring

variable [LinearOrder K] [IsStrictOrderedRing K]

theorem objTik_min (D G : Mat K) (hD : D.WF) (z o : List K) (hz : z.length = D.nrows)
    (ho : o.length = D.ncols)
    (hn : ∀ y, y.length = D.ncols → dot (matVec D.rows y) (vsub (matVec D.rows o) z) +
      dot (matVec G.rows y) (matVec G.rows o) = 0) :
    Minimises (objTik D G z) D.ncols o := by
  refine ⟨ho, fun y hy => ?_⟩
  rw [objTik_excess D G hD z o y hz ho hy hn]
  have h1 := sumSq_nonneg (matVec D.rows (vsub y o))
  have h2 := sumSq_nonneg (matVec G.rows (vsub y o))
  linarith

/-- Minimisers are unique when the normal matrix is injective. -/
theorem objTik_unique (D G : Mat K) (hD : D.WF) (hG : G.WF) (hGc : G.ncols = D.ncols) (z o o' : List K)
    (hz : z.length = D.nrows) (ho : o.length = D.ncols)
    (hn : ∀ y, y.length = D.ncols → dot (matVec D.rows y) (vsub (matVec D.rows o) z) +
      dot (matVec G.rows y) (matVec G.rows o) = 0)
    (hinj : ∀ y : List K, y.length = D.ncols →
      matVec (normalMat D G).rows y = replicate D.ncols 0 → y = replicate D.ncols 0)
    (ho' : Minimises (objTik D G z) D.ncols o') : o' = o := by
  have e1 := objTik_excess D G hD z o o' hz ho ho'.1 hn
  have e2 := ho'.2 o ho
  have h1 := sumSq_nonneg (matVec D.rows (vsub o' o))
  have h2 := sumSq_nonneg (matVec G.rows (vsub o' o))
  have e3 : sumSq (matVec D.rows (vsub o' o)) = 0 := by linarith
  have e4 : sumSq (matVec G.rows (vsub o' o)) = 0 := by linarith
  have hl : (vsub o' o).length = D.ncols := by simp [ho, ho'.1]
  have e5 := hinj _ hl (by
    have hlen : (matVec (normalMat D G).rows (vsub o' o)).length = D.ncols := by
      simp [normalMat, matMul, transpose, hGc]
    have := dot_self_eq_zero (matVec (normalMat D G).rows (vsub o' o)) (by
      rw [dot_normalMat D G hD hG hGc, sumSq_eq_zero _ e3, sumSq_eq_zero _ e4, dot_comm',
        dot_replicate_zero, dot_comm', dot_replicate_zero, add_zero])
    rw [this, hlen])
  exact vsub_eq_zero o' o (ho'.1.trans ho.symm) (by rw [e5, ho'.1])

/-! ### C24 -/

omit [LinearOrder K] [IsStrictOrderedRing K] in
theorem Tik.fit1_ok (s : Tik (Mat K) K) (D Z G : Mat K) (hk : Z.ncols = D.nrows)
    (hreg : s.reg = some G) (hGr : G.nrows = D.ncols) (hGc : G.ncols = D.ncols) :
    s.fit1 (.mat D) (.mat Z) = (⟨some G, s.method, some (D, Z), some (tikPre D Z)⟩, .ok ()) := by
  simp only [Tik.fit1, Tik.fit, templateFit_mat D Z hk, hreg, tikShape, hGr, hGc, and_self, if_true]

omit [IsStrictOrderedRing K] in
/-- **C24** (`method="lstsq"`): when `scipy.linalg.lstsq` returns a least-squares solution of the
stacked system `[D; Γ] X = [Zᵀ; 0]`, every row of `solve()` minimises `‖D o − z‖² + ‖Γ o‖²`. -/
theorem C24_tikhonov_lstsq_minimises (lstsq posSolve : Mat K → Mat K → Except Err (Mat K))
    (s : Tik (Mat K) K) (D Z G : Mat K) (hD : D.WF) (hZ : Z.WF) (hG : G.WF) (hk : Z.ncols = D.nrows)
    (hreg : s.reg = some G) (hGr : G.nrows = D.ncols) (hGc : G.ncols = D.ncols)
    (hm : s.method = .lstsq) (X : Mat K) (hX : lstsq (stackMat D G) (padRhs D.ncols Z) = .ok X)
    (hXs : IsLstsq (stackMat D G) (padRhs D.ncols Z) X) :
    ∃ s' O, s.fit1 (.mat D) (.mat Z) = (s', .ok ()) ∧ s'.solve lstsq posSolve = .ok O ∧ O.WF ∧
      O.nrows = Z.nrows ∧ O.ncols = D.ncols ∧
      Forall₂ (fun z o => Minimises (objTik D G z) D.ncols o) Z.rows O.rows := by
  refine ⟨_, X.t, Tik.fit1_ok s D Z G hk hreg hGr hGc, ?_, X.t_wf hXs.wf, hXs.cols, hXs.rows, ?_⟩
  · simp only [Tik.solve, hm, tikPre_eq]
    rw [tikSolve_lstsq _ _ _ _ _ _ _ hGc (by simp [padRhs, hk, hGr]), hX]
    rfl
  · rw [Mat.t_rows_eq, forall₂_iff_get]
    refine ⟨by simp [hXs.cols, padRhs, hZ.1], fun i h1 h2 => ?_⟩
    have hi : i < Z.rows.length := h1
    have := hXs.min i (by simpa [padRhs, hZ.1] using hi)
    simp only [get_eq_getElem, getElem_map, getElem_range]
    rw [col_padRhs _ _ hZ i hi] at this
    have hz : Z.rows[i].length = D.nrows := by rw [hZ.2 _ (getElem_mem _), hk]
    simp only [objTik_stack D G hD Z.rows[i] _ hz D.ncols (by rw [hG.1, hGr])] at this
    exact this

omit [LinearOrder K] [IsStrictOrderedRing K] in
/-- The normal-equation branch of `solve()` and what its result satisfies. -/
theorem tik_normal_solve (lstsq posSolve : Mat K → Mat K → Except Err (Mat K))
    (s : Tik (Mat K) K) (D Z G : Mat K) (hD : D.WF) (hZ : Z.WF) (hG : G.WF) (hk : Z.ncols = D.nrows)
    (hreg : s.reg = some G) (hGr : G.nrows = D.ncols) (hGc : G.ncols = D.ncols)
    (hm : s.method = .normal) (X : Mat K) (hX : posSolve (normalMat D G) (normalRhs D Z) = .ok X)
    (hXs : IsSolution (normalMat D G) (normalRhs D Z) X) :
    ∃ s' O, s.fit1 (.mat D) (.mat Z) = (s', .ok ()) ∧ s'.solve lstsq posSolve = .ok O ∧ O.WF ∧
      O.nrows = Z.nrows ∧ O.ncols = D.ncols ∧
      Forall₂ (fun z o => z.length = D.nrows ∧ o.length = D.ncols ∧ ∀ y, y.length = D.ncols →
        dot (matVec D.rows y) (vsub (matVec D.rows o) z) +
          dot (matVec G.rows y) (matVec G.rows o) = 0) Z.rows O.rows := by
  refine ⟨_, X.t, Tik.fit1_ok s D Z G hk hreg hGr hGc, ?_, X.t_wf hXs.wf, hXs.cols, hXs.rows, ?_⟩
  · simp only [Tik.solve, hm, tikPre_eq]
    rw [tikSolve_normal _ _ _ _ _ _ hGc (by simp [normalRhs]), hX]
    rfl
  · rw [Mat.t_rows_eq, forall₂_iff_get]
    refine ⟨by simp [hXs.cols, normalRhs, hZ.1], fun i h1 h2 => ?_⟩
    have hi : i < Z.rows.length := h1
    have hz : Z.rows[i].length = D.nrows := by rw [hZ.2 _ (getElem_mem _), hk]
    have := hXs.eq i (by simpa [normalRhs, hZ.1] using hi)
    simp only [get_eq_getElem, getElem_map, getElem_range]
    refine ⟨hz, ?_, fun y _ => ?_⟩
    · simp only [col, length_map, hXs.wf.1, hXs.rows, normalMat]
    · refine normal_weak D G hD hG hGc Z.rows[i] _ hz ?_ y
      rw [this, normalRhs, col_matMul _ _ _ (fun b hb => by rw [transpose_rows _ _ b hb, hZ.1]) i
        (hZ.1 ▸ hi), col_transpose _ _ _ hZ.2 hi]

/-- **C24** (`method="normal"`): when `scipy.linalg.solve` solves `(DᵀD + ΓᵀΓ) X = DᵀZᵀ`, every row
of `solve()` minimises `‖D o − z‖² + ‖Γ o‖²`. -/
theorem C24_tikhonov_normal_minimises (lstsq posSolve : Mat K → Mat K → Except Err (Mat K))
    (s : Tik (Mat K) K) (D Z G : Mat K) (hD : D.WF) (hZ : Z.WF) (hG : G.WF) (hk : Z.ncols = D.nrows)
    (hreg : s.reg = some G) (hGr : G.nrows = D.ncols) (hGc : G.ncols = D.ncols)
    (hm : s.method = .normal) (X : Mat K) (hX : posSolve (normalMat D G) (normalRhs D Z) = .ok X)
    (hXs : IsSolution (normalMat D G) (normalRhs D Z) X) :
    ∃ s' O, s.fit1 (.mat D) (.mat Z) = (s', .ok ()) ∧ s'.solve lstsq posSolve = .ok O ∧ O.WF ∧
      O.nrows = Z.nrows ∧ O.ncols = D.ncols ∧
      Forall₂ (fun z o => Minimises (objTik D G z) D.ncols o) Z.rows O.rows := by
  obtain ⟨s', O, h1, h2, h3, h4, h5, h6⟩ :=
    tik_normal_solve lstsq posSolve s D Z G hD hZ hG hk hreg hGr hGc hm X hX hXs
  exact ⟨s', O, h1, h2, h3, h4, h5, h6.imp fun z o h => objTik_min D G hD z o h.1 h.2.1 h.2.2⟩

/-- **C24** (agreement): if the normal matrix is injective the two methods return the same matrix. -/
theorem C24_tikhonov_methods_agree (lstsq posSolve : Mat K → Mat K → Except Err (Mat K))
    (s t : Tik (Mat K) K) (D Z G : Mat K) (hD : D.WF) (hZ : Z.WF) (hG : G.WF) (hk : Z.ncols = D.nrows)
    (hs : s.reg = some G) (ht : t.reg = some G) (hGr : G.nrows = D.ncols) (hGc : G.ncols = D.ncols)
    (hsm : s.method = .lstsq) (htm : t.method = .normal)
    (X : Mat K) (hX : lstsq (stackMat D G) (padRhs D.ncols Z) = .ok X)
    (hXs : IsLstsq (stackMat D G) (padRhs D.ncols Z) X)
    (Y : Mat K) (hY : posSolve (normalMat D G) (normalRhs D Z) = .ok Y)
    (hYs : IsSolution (normalMat D G) (normalRhs D Z) Y)
    (hinj : ∀ y : List K, y.length = D.ncols →
      matVec (normalMat D G).rows y = replicate D.ncols 0 → y = replicate D.ncols 0) :
    ∃ O, (s.fit1 (.mat D) (.mat Z)).1.solve lstsq posSolve = .ok O ∧
      (t.fit1 (.mat D) (.mat Z)).1.solve lstsq posSolve = .ok O := by
  obtain ⟨s', O, h1, h2, h3, h4, h5, h6⟩ :=
    C24_tikhonov_lstsq_minimises lstsq posSolve s D Z G hD hZ hG hk hs hGr hGc hsm X hX hXs
  obtain ⟨t', P, g1, g2, g3, g4, g5, g6⟩ :=
    tik_normal_solve lstsq posSolve t D Z G hD hZ hG hk ht hGr hGc htm Y hY hYs
  have e : O.rows = P.rows := by
    apply ext_getElem
    · rw [← h6.length_eq, g6.length_eq]
    · intro i a b
      have hi : i < Z.rows.length := by rw [h6.length_eq]; exact a
      have u1 := (forall₂_iff_get.mp h6).2 i hi a
      have u2 := (forall₂_iff_get.mp g6).2 i hi b
      exact objTik_unique D G hD hG hGc _ _ _ u2.1 u2.2.1 u2.2.2 hinj u1
  refine ⟨O, by rw [h1]; exact h2, ?_⟩
  rw [g1]
  have : O = P := by
    obtain ⟨a, b, c⟩ := O
    obtain ⟨a', b', c'⟩ := P
    simp only at e h4 h5 g4 g5
    rw [e, h4, h5, g4, g5]
  rw [this]
  exact g2

/-! ### C23 -/

omit [LinearOrder K] [IsStrictOrderedRing K] in
theorem Tik.fitDec_ok (s : Tik (List (Mat K)) K) (D Z : Mat K) (Gs : List (Mat K))
    (hk : Z.ncols = D.nrows) (hreg : s.reg = some Gs) (hl : Gs.length = Z.nrows)
    (hG : ∀ G ∈ Gs, G.nrows = D.ncols ∧ G.ncols = D.ncols) :
    s.fitDec (.mat D) (.mat Z) = (⟨some Gs, s.method, some (D, Z), some (tikPre D Z)⟩, .ok ()) := by
  have h2 : Gs.all (fun G => decide (G.nrows = D.ncols ∧ G.ncols = D.ncols)) = true := by
    rw [all_eq_true]; intro G h; simpa using hG G h
  simp only [Tik.fitDec, Tik.fit, templateFit_mat D Z hk, hreg, tikDecShape, hl, ne_eq, not_true,
    if_false, h2, if_true]

omit [LinearOrder K] [IsStrictOrderedRing K] in
theorem colMat_padRhs (d : Nat) (Z : Mat K) (i : Nat) (hi : i < Z.rows.length) :
    (padRhs d Z).colMat i = padRhs d ⟨1, Z.ncols, [Z.rows[i]]⟩ := by
  simp only [Mat.colMat, padRhs]
  congr 1
  rw [map_append]
  congr 1
  · simp only [transpose, map_map]
    apply map_congr_left
    intro c _
    simp [getD_eq_getElem?_getD, hi]
  · rw [map_replicate]
    congr 1
    simp [getD_eq_getElem?_getD, getElem?_replicate]
    split <;> rfl

omit [LinearOrder K] [IsStrictOrderedRing K] in
theorem colMat_normalRhs (D Z : Mat K) (hZ : Z.WF) (i : Nat) (hi : i < Z.rows.length) :
    (normalRhs D Z).colMat i = normalRhs D ⟨1, Z.ncols, [Z.rows[i]]⟩ := by
  have h1 := col_matMul Z.nrows (transpose D.ncols D.rows) (transpose Z.ncols Z.rows)
    (fun b hb => by rw [transpose_rows _ _ b hb, hZ.1]) i (hZ.1 ▸ hi)
  have h2 := col_matMul 1 (transpose D.ncols D.rows) (transpose Z.ncols [Z.rows[i]])
    (fun b hb => by rw [transpose_rows _ _ b hb]; rfl) 0 (by simp)
  rw [col_transpose _ _ _ hZ.2 hi] at h1
  rw [col_transpose _ _ 0 (by simpa using hZ.2 _ (getElem_mem hi)) (by simp)] at h2
  simp only [getElem_cons_zero] at h2
  simp only [Mat.colMat, normalRhs]
  congr 1
  have e1 : (matMul Z.nrows (transpose D.ncols D.rows) (transpose Z.ncols Z.rows)).map
      (fun row => [row.getD i 0]) =
      (col (matMul Z.nrows (transpose D.ncols D.rows) (transpose Z.ncols Z.rows)) i).map fun x => [x] := by
    simp [col]
  have e2 : matMul 1 (transpose D.ncols D.rows) (transpose Z.ncols [Z.rows[i]]) =
      (col (matMul 1 (transpose D.ncols D.rows) (transpose Z.ncols [Z.rows[i]])) 0).map fun x => [x] := by
    simp only [col, map_map]
    conv_lhs => rw [← map_id (matMul 1 (transpose D.ncols D.rows) (transpose Z.ncols [Z.rows[i]]))]
    apply map_congr_left
    intro row hrow
    have hl : row.length = 1 := matMul_rows 1 _ _ (fun b hb => by rw [transpose_rows _ _ b hb]; rfl) row hrow
    obtain ⟨x, rfl⟩ := length_eq_one_iff.mp hl
    simp
  rw [e1, e2, h1, h2]

omit [LinearOrder K] [IsStrictOrderedRing K] in
theorem mapM_error {α β : Type} (f : α → Except Err β) (l : List α) (e : Err)
    (h : l.mapM f = .error e) : ∃ a ∈ l, f a = .error e := by
  induction l with
  | nil => simp [pure, Except.pure] at h
  | cons a l ih =>
    rw [mapM_cons] at h
    cases ha : f a with
    | error e' =>
      rw [ha] at h
      cases h
      exact ⟨a, by simp, ha⟩
    | ok b =>
      rw [ha] at h
      cases hl : l.mapM f with
      | error e' =>
        rw [hl] at h
        cases h
        obtain ⟨a', h1, h2⟩ := ih hl
        exact ⟨a', by simp [h1], h2⟩
      | ok bs => rw [hl] at h; cases h

theorem mapM_ok_get {α β : Type} (f : α → Except Err β) (l : List α) (bs : List β)
    (h : l.mapM f = .ok bs) : Forall₂ (fun a b => f a = .ok b) l bs := by
  induction l generalizing bs with
  | nil => cases h; exact .nil
  | cons a l ih =>
    rw [mapM_cons] at h
    cases ha : f a with
    | error e' => rw [ha] at h; cases h
    | ok b =>
      rw [ha] at h
      cases hl : l.mapM f with
      | error e' => rw [hl] at h; cases h
      | ok bs' =>
        rw [hl] at h
        cases h
        exact .cons ha (ih bs' hl)

/-- The external solvers return arrays of the right shape (which they always do). -/
def ShapedSolve (f : Mat K → Mat K → Except Err (Mat K)) : Prop :=
  ∀ A B X, f A B = .ok X → X.WF ∧ X.nrows = A.ncols ∧ X.ncols = B.ncols

omit [LinearOrder K] [IsStrictOrderedRing K] in
/-- **C23** (Tikhonov): a fitted `TikhonovDecoupledSolver` gives in row `i` exactly what a
`TikhonovSolver` with regularizer `Γᵢ` and the same method gives when fitted to row `i` of the
left-hand side alone; it fails only if one of these fails. -/
theorem C23_tikhonov_rows_decoupled (junk : K) (lstsq posSolve : Mat K → Mat K → Except Err (Mat K))
    (hls : ShapedSolve lstsq) (hps : ShapedSolve posSolve) (s : Tik (List (Mat K)) K) (D Z : Mat K)
    (hZ : Z.WF) (hk : Z.ncols = D.nrows) (Gs : List (Mat K)) (hreg : s.reg = some Gs)
    (hl : Gs.length = Z.nrows) (hG : ∀ G ∈ Gs, G.nrows = D.ncols ∧ G.ncols = D.ncols) :
    ∃ s', s.fitDec (.mat D) (.mat Z) = (s', .ok ()) ∧
      (∀ O : Mat K, s'.solveDec junk lstsq posSolve = .ok O →
        O.nrows = Z.nrows ∧ O.ncols = D.ncols ∧ O.rows.length = Z.nrows ∧
        ∀ i, (hi : i < Gs.length) → ∀ t : Tik (Mat K) K, t.reg = some Gs[i] → t.method = s.method →
          (t.fit1 (.mat D) (.vec (Z.rows.getD i []))).1.solve lstsq posSolve =
            .ok ⟨1, D.ncols, [O.rows.getD i []]⟩) ∧
      (∀ e, s'.solveDec junk lstsq posSolve = .error e → ∃ i, ∃ hi : i < Gs.length,
        ∀ t : Tik (Mat K) K, t.reg = some Gs[i] → t.method = s.method →
          (t.fit1 (.mat D) (.vec (Z.rows.getD i []))).1.solve lstsq posSolve = .error e) := by
  -- what the loop computes for row `i`
  let f : Mat K × Nat → Except Err (List K) := fun Gi => do
    if Z.nrows ≤ Gi.2 ∨ (padRhs D.ncols Z).ncols ≤ Gi.2 then throw .index
    let x ← tikSolve lstsq posSolve s.method D Gi.1 ((padRhs D.ncols Z).colMat Gi.2) (D.t.mul D)
      ((normalRhs D Z).colMat Gi.2)
    if x.nrows ≠ D.ncols then throw .value
    return x.rows.map fun row => row.getD 0 0
  have hcoupled : ∀ i (hi : i < Gs.length) (t : Tik (Mat K) K), t.reg = some Gs[i] →
      t.method = s.method →
      (t.fit1 (.mat D) (.vec (Z.rows.getD i []))).1.solve lstsq posSolve =
        (f (Gs[i], i)).map fun row => ⟨1, D.ncols, [row]⟩ := by
    intro i hi t ht hm
    have hi' : i < Z.rows.length := by rw [hZ.1, ← hl]; exact hi
    have hrow : Z.rows.getD i [] = Z.rows[i] := by
      rw [getD_eq_getElem?_getD, getElem?_eq_getElem hi']; rfl
    have hlen : Z.rows[i].length = Z.ncols := hZ.2 _ (getElem_mem hi')
    have e0 : t.fit1 (.mat D) (.vec Z.rows[i]) =
        t.fit1 (.mat D) (.mat ⟨1, Z.ncols, [Z.rows[i]]⟩) := by
      have : t.fit1 (.mat D) (.vec Z.rows[i]) =
        t.fit1 (.mat D) (.mat ⟨1, Z.rows[i].length, [Z.rows[i]]⟩) := rfl
      rw [this, hlen]
    obtain ⟨hg1, hg2⟩ := hG _ (getElem_mem hi)
    rw [hrow, e0, Tik.fit1_ok t D ⟨1, Z.ncols, [Z.rows[i]]⟩ Gs[i] hk ht hg1 hg2]
    have hf : f (Gs[i], i) = (do
        let x ← tikSolve lstsq posSolve s.method D Gs[i] ((padRhs D.ncols Z).colMat i) (D.t.mul D)
          ((normalRhs D Z).colMat i)
        if x.nrows ≠ D.ncols then throw .value
        return x.rows.map fun row => row.getD 0 0) := by
      have : ¬ (Z.nrows ≤ i ∨ (padRhs D.ncols Z).ncols ≤ i) := by
        rw [show (padRhs D.ncols Z).ncols = Z.nrows from rfl]; omega
      simp only [f, if_neg this]
    rw [hf, colMat_padRhs _ _ i hi', colMat_normalRhs _ _ hZ i hi']
    simp only [Tik.solve, hm]
    -- the shape of the result
    have hshape : ∀ x, tikSolve lstsq posSolve s.method D Gs[i]
        (padRhs D.ncols ⟨1, Z.ncols, [Z.rows[i]]⟩) (D.t.mul D)
        (normalRhs D ⟨1, Z.ncols, [Z.rows[i]]⟩) = .ok x → x.nrows = D.ncols ∧ x.ncols = 1 := by
      intro x hx
      cases hmm : s.method with
      | lstsq =>
        rw [hmm, tikSolve_lstsq _ _ _ _ _ _ _ hg2 (by simp [padRhs, hk, hg1])] at hx
        exact (hls _ _ _ hx).2
      | normal =>
        rw [hmm, tikSolve_normal _ _ _ _ _ _ hg2 (by simp [normalRhs])] at hx
        exact (hps _ _ _ hx).2
    cases hx : tikSolve lstsq posSolve s.method D Gs[i]
        (padRhs D.ncols ⟨1, Z.ncols, [Z.rows[i]]⟩) (D.t.mul D)
        (normalRhs D ⟨1, Z.ncols, [Z.rows[i]]⟩) with
    | error e =>
      have hx' : tikSolve lstsq posSolve s.method D Gs[i] (tikPre D ⟨1, Z.ncols, [Z.rows[i]]⟩).ZtPad
        (tikPre D ⟨1, Z.ncols, [Z.rows[i]]⟩).DtD (tikPre D ⟨1, Z.ncols, [Z.rows[i]]⟩).DtZt = .error e := hx
      rw [hx']; rfl
    | ok x =>
      have hx' : tikSolve lstsq posSolve s.method D Gs[i] (tikPre D ⟨1, Z.ncols, [Z.rows[i]]⟩).ZtPad
        (tikPre D ⟨1, Z.ncols, [Z.rows[i]]⟩).DtD (tikPre D ⟨1, Z.ncols, [Z.rows[i]]⟩).DtZt = .ok x := hx
      obtain ⟨h1, h2⟩ := hshape x hx
      rw [hx']
      simp only [bind, Except.bind, pure, Except.pure, h1, ne_eq, not_true, if_false, Except.map, Mat.t, h2]
      rfl
  have hdec : (⟨some Gs, s.method, some (D, Z), some (tikPre D Z)⟩ : Tik (List (Mat K)) K).solveDec junk
      lstsq posSolve = (Gs.zipIdx.mapM f).map fun rows =>
        ⟨Z.nrows, D.ncols, rows ++ replicate (Z.nrows - rows.length) (replicate D.ncols junk)⟩ := by
    simp only [Tik.solveDec]
    change (Gs.zipIdx.mapM f >>= _) = _
    cases Gs.zipIdx.mapM f <;> rfl
  refine ⟨_, Tik.fitDec_ok s D Z Gs hk hreg hl hG, ?_, ?_⟩
  · intro O hO
    rw [hdec] at hO
    cases hm : Gs.zipIdx.mapM f with
    | error e => rw [hm] at hO; cases hO
    | ok rows =>
      rw [hm] at hO
      cases hO
      have hf := mapM_ok_get f _ _ hm
      have hlen : rows.length = Z.nrows := by rw [← hf.length_eq, length_zipIdx, hl]
      refine ⟨rfl, rfl, by simp [hlen], fun i hi t ht hm => ?_⟩
      rw [hcoupled i hi t ht hm]
      have hi' : i < rows.length := by rw [hlen, ← hl]; exact hi
      have := (forall₂_iff_get.mp hf).2 i (by simpa using hi) hi'
      simp only [get_eq_getElem, getElem_zipIdx, Nat.zero_add] at this
      rw [this]
      simp only [hlen, Nat.sub_self, replicate_zero, append_nil, Except.map]
      rw [getD_eq_getElem?_getD, getElem?_eq_getElem hi']; rfl
  · intro e he
    rw [hdec] at he
    cases hm : Gs.zipIdx.mapM f with
    | ok rows => rw [hm] at he; cases he
    | error e' =>
      rw [hm] at he
      cases he
      obtain ⟨⟨G, i⟩, h1, h2⟩ := mapM_error f _ _ hm
      obtain ⟨hi, rfl⟩ : ∃ hi : i < Gs.length, Gs[i] = G := by
        have := mem_zipIdx h1
        simp only [Nat.zero_add, Nat.sub_zero] at this
        exact ⟨this.2.1, this.2.2.symm⟩
      refine ⟨i, hi, fun t ht hm => ?_⟩
      rw [hcoupled i hi t ht hm, h2]; rfl

/-! ### C29 -/

omit [LinearOrder K] [IsStrictOrderedRing K] in
/-- **C29** (`TikhonovSolver.regresidual`): the regularised residuals are the values of
`‖D oᵢ − zᵢ‖² + ‖Γ oᵢ‖²`. -/
theorem C29_tikhonov_regresidual (s : Tik (Mat K) K) (D Z G : Mat K) (hd : s.data = some (D, Z))
    (hreg : s.reg = some G) (hGc : G.ncols = D.ncols) (hZ : Z.WF) (O : Mat K) (hO : O.WF)
    (hr : O.nrows = Z.nrows) (hc : O.ncols = D.ncols) :
    s.regresidual (.mat O) = .ok (zipWith (objTik D G) Z.rows O.rows) := by
  simp only [Tik.regresidual, hd, hreg, residual, checkOhat, hr, hc, and_self, if_true, bind,
    Except.bind, pure, Except.pure, hGc, ne_eq, not_true, if_false]
  congr 1
  have hl : O.rows.length = Z.rows.length := by rw [hO.1, hZ.1, hr]
  generalize O.rows = Or at hl ⊢
  generalize Z.rows = Zr at hl ⊢
  induction Or generalizing Zr with
  | nil => obtain rfl := length_eq_zero_iff.mp hl.symm; rfl
  | cons o Or ih =>
    cases Zr with
    | nil => simp at hl
    | cons z Zr => simp [objTik, ih Zr (by simpa using hl)]

omit [LinearOrder K] [IsStrictOrderedRing K] in
/-- **C29** (`TikhonovDecoupledSolver.regresidual`): row `i` uses its own regularizer. -/
theorem C29_tikdec_regresidual (s : Tik (List (Mat K)) K) (D Z : Mat K) (Gs : List (Mat K))
    (hd : s.data = some (D, Z)) (hreg : s.reg = some Gs) (hl : Gs.length = Z.nrows)
    (hG : ∀ G ∈ Gs, G.ncols = D.ncols) (hZ : Z.WF)
    (O : Mat K) (hO : O.WF) (hr : O.nrows = Z.nrows) (hc : O.ncols = D.ncols) :
    s.regresidualDec (.mat O) =
      .ok (zipWith (fun G zo => objTik D G zo.1 zo.2) Gs (zip Z.rows O.rows)) := by
  have h1 : (Gs.take Z.nrows).all (fun G => decide (G.ncols = D.ncols)) = true := by
    rw [all_eq_true]; intro G h; simpa using hG G (mem_of_mem_take h)
  simp only [Tik.regresidualDec, hd, hreg, residual, checkOhat, hr, hc, and_self, if_true, bind,
    Except.bind, pure, Except.pure, hl, h1, Bool.not_true, Bool.false_eq_true, if_false, min_self,
    ne_eq, not_true]
  congr 1
  exact zipWith_residual_add (fun z o => sumSq (vsub (matVec D.rows o) z))
    (fun G o => sumSq (matVec G.rows o)) Gs Z.rows O.rows (by rw [hO.1, hZ.1, hr]) (by rw [hl, hZ.1])

omit [LinearOrder K] [IsStrictOrderedRing K] in
/-- **C29** (a gap of the code): with a single row, `residual` accepts a one-dimensional `Ohat` but
`TikhonovDecoupledSolver.regresidual` raises `ValueError` for it. -/
theorem C29_tikdec_regresidual_rejects_vector (s : Tik (List (Mat K)) K) (D Z : Mat K)
    (Gs : List (Mat K)) (hd : s.data = some (D, Z)) (hreg : s.reg = some Gs) (h1 : Z.nrows = 1)
    (o : List K) (ho : o.length = D.ncols) :
    (∃ R, residual s.data (.vec o) = .ok R) ∧ s.regresidualDec (.vec o) = .error .value := by
  simp [Tik.regresidualDec, hd, hreg, residual, checkOhat, h1, ho, bind, Except.bind, pure, Except.pure]

/-! ### C25 -/

omit [LinearOrder K] [IsStrictOrderedRing K] in
/-- **C25** (the weights): the diagonal built by `get_operator_regularizer` repeats the parameter of
each operator once per column of the operator, in the order of the operators; mismatched lengths and a
missing input dimension are `ValueError`s. -/
theorem C25_operator_regularizer (ops : List (OpKind × Bool)) (params : List K) (r m : Nat) :
    (ops.length ≠ params.length → operatorRegularizer ops params r m = .error .value) ∧
    (ops.length = params.length → ops.any Prod.snd = true → m = 0 →
      operatorRegularizer ops params r m = .error .value) ∧
    (ops.length = params.length → ¬ (ops.any Prod.snd = true ∧ m = 0) →
      operatorRegularizer ops params r m = .ok (zipWith (fun o g => replicate (o.1.dim r m) g)
        ops params).flatten) := by
  refine ⟨fun h => by simp [operatorRegularizer, h], fun h h1 h2 => ?_, fun h h1 => ?_⟩
  · simp [operatorRegularizer, h, h1, h2]
  · have hif : (ops.any Prod.snd && m == 0) = false := by
      rw [Bool.and_eq_false_iff]
      by_cases ha : ops.any Prod.snd = true
      · right; simpa using fun hm => h1 ⟨ha, hm⟩
      · left; simpa using ha
    have key : ∀ (ds : List Nat) (ps : List K) (pre : List K), ds.length = ps.length →
        ((zip ds ps).foldl (fun (st : List K × Nat) (dp : Nat × K) =>
          (zipWith (fun j x => if st.2 ≤ j ∧ j < st.2 + dp.1 then dp.2 else x) (range st.1.length) st.1,
            st.2 + dp.1)) (pre ++ replicate ds.sum 0, pre.length)).1 =
          pre ++ (zipWith (fun d g => replicate d g) ds ps).flatten := by
      intro ds
      induction ds with
      | nil => intro ps pre _; simp
      | cons d ds ih =>
        intro ps pre hl
        cases ps with
        | nil => simp at hl
        | cons g ps =>
          have e : zipWith (fun j x => if pre.length ≤ j ∧ j < pre.length + d then g else x)
              (range (pre ++ replicate (d :: ds).sum (0 : K)).length)
              (pre ++ replicate (d :: ds).sum (0 : K)) =
              (pre ++ replicate d g) ++ replicate ds.sum 0 := by
            apply ext_getElem
            · simp only [length_zipWith, length_range, length_append, length_replicate, sum_cons, min_self]
              omega
            · intro i h1 h2
              simp only [getElem_zipWith, getElem_range]
              by_cases hi1 : i < pre.length
              · rw [if_neg (by omega), getElem_append_left hi1, getElem_append_left (by simp; omega),
                  getElem_append_left hi1]
              · by_cases hi2 : i < pre.length + d
                · rw [if_pos (by omega), getElem_append_left (by simpa using hi2),
                    getElem_append_right (by omega), getElem_replicate]
                · rw [if_neg (by omega), getElem_append_right (by omega),
                    getElem_append_right (by simp; omega), getElem_replicate, getElem_replicate]
          rw [zip_cons_cons, foldl_cons]
          simp only []
          rw [e, show pre.length + d = (pre ++ replicate d g).length by simp,
            ih ps _ (by simpa using hl)]
          simp
    simp only [operatorRegularizer, h, ne_eq, not_true, if_false, hif, Bool.false_eq_true]
    congr 1
    have := key (ops.map fun o => o.1.dim r m) params [] (by simpa using h)
    simp only [nil_append, length_nil, zipWith_map_left] at this
    exact this

omit [LinearOrder K] [IsStrictOrderedRing K] in
theorem matVec_diag (v x : List K) (h : x.length = v.length) :
    matVec (Mat.diag v).rows x = zipWith (· * ·) v x := by
  apply ext_getElem
  · simp [Mat.diag, h]
  · intro i h1 h2
    have hi : i < v.length := by simpa [Mat.diag] using h1
    simp only [matVec, Mat.diag, getElem_map, getElem_range, getElem_zipWith]
    rw [dot_range _ _ _ h, Finset.sum_eq_single i]
    · simp [getD_eq_getElem?_getD, hi, h]
    · intro b _ hb; simp [Ne.symm hb]
    · intro hc; simp [hi] at hc

omit [LinearOrder K] [IsStrictOrderedRing K] in
/-- **C25** (the penalty): with that diagonal regularizer, the Tikhonov penalty of a row that is the
concatenation of one block per operator is `Σᵢ γᵢ² ‖blockᵢ‖²`. -/
theorem C25_penalty_per_operator (ops : List (OpKind × Bool)) (params : List K) (r m : Nat)
    (hl : ops.length = params.length) (hm : ¬ (ops.any Prod.snd = true ∧ m = 0))
    (blocks : List (List K))
    (hb : Forall₂ (fun o b => b.length = o.1.dim r m) ops blocks) :
    ∃ g, operatorRegularizer ops params r m = .ok g ∧
      sumSq (matVec (Mat.diag g).rows blocks.flatten) =
        (zipWith (fun c b => c ^ 2 * sumSq b) params blocks).sum := by
  refine ⟨_, (C25_operator_regularizer ops params r m).2.2 hl hm, ?_⟩
  have key : ∀ (ps : List K), ops.length = ps.length →
      (zipWith (fun o g => replicate (o.1.dim r m) g) ops ps).flatten.length = blocks.flatten.length ∧
      sumSq (zipWith (· * ·) (zipWith (fun o g => replicate (o.1.dim r m) g) ops ps).flatten
        blocks.flatten) = (zipWith (fun c b => c ^ 2 * sumSq b) ps blocks).sum := by
    clear hm hl
    induction hb with
    | nil => intro ps _; simp [sumSq]
    | @cons o b ops blocks h _ ih =>
      intro ps hl
      cases ps with
      | nil => simp at hl
      | cons g ps =>
        obtain ⟨h1, h2⟩ := ih ps (by simpa using hl)
        refine ⟨?_, ?_⟩
        · rw [zipWith_cons_cons, flatten_cons, flatten_cons, length_append, length_append, h1,
            length_replicate, h]
        rw [zipWith_cons_cons, zipWith_cons_cons, flatten_cons, flatten_cons, sum_cons, ← h2,
          zipWith_append (by simp [h]), sumSq_append]
        congr 1
        rw [← sumSq_vsmul, vsmul, ← h]
        congr 1
        clear h
        induction b with
        | nil => rfl
        | cons x b ihb => simp [replicate_succ, ihb]
  rw [matVec_diag _ _ (key params hl).1.symm]
  exact (key params hl).2

/-! ### Assigned regularizers -/

/-- `G` is the matrix with the diagonal `v`: it multiplies entrywise. -/
def IsDiagonal (v : List K) (G : Mat K) : Prop :=
  G.WF ∧ G.nrows = v.length ∧ G.ncols = v.length ∧
    ∀ o : List K, o.length = v.length → matVec G.rows o = zipWith (· * ·) v o

omit [LinearOrder K] [IsStrictOrderedRing K] in
theorem isDiagonal_diag (v : List K) : IsDiagonal v (Mat.diag v) :=
  ⟨⟨by simp [Mat.diag], by simp [Mat.diag]⟩, rfl, rfl, fun o ho => matVec_diag v o ho⟩

omit [IsStrictOrderedRing K] in
theorem toMat_diag (v : List K) (h : ∀ x ∈ v, 0 ≤ x) : (RegArg.diag v).toMat = .ok (Mat.diag v) := by
  rw [RegArg.toMat, if_neg]
  simp only [any_eq_true, decide_eq_true_eq, not_exists, not_and, not_lt]
  exact h

omit [IsStrictOrderedRing K] in
theorem toMat_negative (v : List K) (h : ∃ x ∈ v, x < 0) : (RegArg.diag v).toMat = .error .value := by
  rw [RegArg.toMat, if_pos]
  simpa using h

omit [IsStrictOrderedRing K] in
/-- **C24.** Assigning a one-dimensional array to `regularizer` makes the diagonal matrix with these entries the
regularizer; a negative entry raises ValueError and changes nothing. Once fitted, the size must be that of the
data. -/
theorem C24_diagonal_regularizer (s : Tik (Mat K) K) (v : List K) :
    ((∃ x ∈ v, x < 0) → s.setReg (some (.diag v)) = (s, .error .value)) ∧
    ((∀ x ∈ v, 0 ≤ x) → ∃ G, IsDiagonal v G ∧ (s.setReg (some (.diag v))).1 = { s with reg := some G } ∧
      ((s.setReg (some (.diag v))).2 = .ok () ↔ ∀ D Z, s.data = some (D, Z) → v.length = D.ncols)) := by
  constructor
  · intro h
    rw [Tik.setReg, toMat_negative v h]
  · intro h
    refine ⟨_, isDiagonal_diag v, ?_, ?_⟩
    · simp only [Tik.setReg, toMat_diag v h]
      cases s.data <;> rfl
    · simp only [Tik.setReg, toMat_diag v h]
      cases s.data with
      | none => simp
      | some x =>
        obtain ⟨D, Z⟩ := x
        simp only [tikShape, Mat.diag, and_self, ite_eq_left_iff, reduceCtorEq, imp_false, not_not, Option.some.injEq,
          Prod.mk.injEq]
        exact ⟨fun h D' Z' e => by rw [← e.1]; exact h, fun h => h D Z ⟨rfl, rfl⟩⟩

omit [LinearOrder K] [IsStrictOrderedRing K] in
/-- **C24.** Assigning a matrix to `regularizer` makes it the regularizer. -/
theorem C24_matrix_regularizer [LT K] [DecidableLT K] (s : Tik (Mat K) K) (G : Mat K) :
    (s.setReg (some (.full G))).1 = { s with reg := some G } ∧
      ((s.setReg (some (.full G))).2 = .ok () ↔
        ∀ D Z, s.data = some (D, Z) → G.nrows = D.ncols ∧ G.ncols = D.ncols) := by
  simp only [Tik.setReg, RegArg.toMat]
  cases s.data with
  | none => simp
  | some x =>
    obtain ⟨D, Z⟩ := x
    simp only [tikShape, true_and, ite_eq_left_iff, reduceCtorEq, imp_false, not_not, Option.some.injEq, Prod.mk.injEq]
    exact ⟨fun h D' Z' e => by rw [← e.1]; exact h, fun h => h D Z ⟨rfl, rfl⟩⟩

omit [IsStrictOrderedRing K] in
/-- **C23.** Assigning one-dimensional arrays to the `regularizer` of a `TikhonovDecoupledSolver` gives every row the
diagonal regularizer with its entries. -/
theorem C23_diagonal_regularizers (s : Tik (List (Mat K)) K) (vs : List (List K)) :
    ((∃ v ∈ vs, ∃ x ∈ v, x < 0) → s.setRegs (some (vs.map .diag)) = (s, .error .value)) ∧
    ((∀ v ∈ vs, ∀ x ∈ v, 0 ≤ x) → ∃ Gs, Forall₂ IsDiagonal vs Gs ∧
      (s.setRegs (some (vs.map .diag))).1 = { s with reg := some Gs } ∧
      ((s.setRegs (some (vs.map .diag))).2 = .ok () ↔ ∀ D Z, s.data = some (D, Z) →
        vs.length = Z.nrows ∧ ∀ v ∈ vs, v.length = D.ncols)) := by
  constructor
  · intro h
    have : (vs.map RegArg.diag).mapM RegArg.toMat = .error .value := by
      clear s
      induction vs with
      | nil => simp at h
      | cons v vs ih =>
        rw [map_cons, mapM_cons]
        by_cases hv : ∃ x ∈ v, x < 0
        · rw [toMat_negative v hv]; rfl
        · have hv' : ∀ x ∈ v, 0 ≤ x := by push Not at hv; exact hv
          rw [toMat_diag v hv']
          obtain ⟨w, hw, x, hx⟩ := h
          rcases mem_cons.mp hw with rfl | hw
          · exact absurd ⟨x, hx⟩ hv
          · rw [ih ⟨w, hw, x, hx⟩]; rfl
    rw [Tik.setRegs, this]
  · intro h
    have hm : (vs.map RegArg.diag).mapM RegArg.toMat = .ok (vs.map Mat.diag) := by
      clear s
      induction vs with
      | nil => rfl
      | cons v vs ih =>
        rw [map_cons, mapM_cons, toMat_diag v (h v mem_cons_self), ih fun v hv => h v (mem_cons_of_mem _ hv)]
        rfl
    refine ⟨vs.map Mat.diag, ?_, ?_, ?_⟩
    · rw [forall₂_map_right_iff, forall₂_same]
      exact fun v _ => isDiagonal_diag v
    · simp only [Tik.setRegs, hm]
      cases s.data <;> rfl
    · simp only [Tik.setRegs, hm]
      cases s.data with
      | none => simp
      | some x =>
        obtain ⟨D, Z⟩ := x
        simp only [tikDecShape, length_map, Option.some.injEq, Prod.mk.injEq]
        by_cases hl : vs.length = Z.nrows
        · rw [if_neg (by simp [hl])]
          simp only [Mat.diag, all_map, ite_eq_left_iff, reduceCtorEq, imp_false, not_not, all_eq_true,
            Function.comp_apply, decide_eq_true_eq, and_self]
          exact ⟨fun h D' Z' e => by rw [← e.1, ← e.2]; exact ⟨hl, h⟩, fun h => (h D Z ⟨rfl, rfl⟩).2⟩
        · rw [if_pos hl]
          simp only [reduceCtorEq, false_iff, not_forall]
          exact ⟨D, Z, ⟨rfl, rfl⟩, fun h => hl h.1⟩

omit [IsStrictOrderedRing K] in
/-- **C25** (assigned): a solver whose `regularizer` is set to the diagonal of `get_operator_regularizer` with
nonnegative parameters penalises each operator with its own weight. -/
theorem C25_assigned (ops : List (OpKind × Bool)) (params : List K) (r m : Nat)
    (hl : ops.length = params.length) (hm : ¬ (ops.any Prod.snd = true ∧ m = 0)) (hp : ∀ x ∈ params, 0 ≤ x)
    (s : Tik (Mat K) K) :
    ∃ g G, operatorRegularizer ops params r m = .ok g ∧ (s.setReg (some (.diag g))).1.reg = some G ∧
      ∀ blocks : List (List K), Forall₂ (fun o b => b.length = o.1.dim r m) ops blocks →
        sumSq (matVec G.rows blocks.flatten) = (zipWith (fun c b => c ^ 2 * sumSq b) params blocks).sum := by
  have hg := (C25_operator_regularizer ops params r m).2.2 hl hm
  refine ⟨_, Mat.diag (zipWith (fun o g => replicate (o.1.dim r m) g) ops params).flatten, hg, ?_, fun blocks hb => ?_⟩
  · rw [Tik.setReg, toMat_diag]
    · simp only
      split <;> rfl
    · intro x hx
      obtain ⟨l, hl, hx⟩ := mem_flatten.mp hx
      rw [← map_uncurry_zip_eq_zipWith] at hl
      obtain ⟨y, hy, rfl⟩ := mem_map.mp hl
      rw [(mem_replicate.mp hx).2]
      exact hp _ (of_mem_zip hy).2
  · obtain ⟨g, h1, h2⟩ := C25_penalty_per_operator ops params r m hl hm blocks hb
    rw [hg] at h1
    cases h1
    exact h2

/-! ### C28 -/

/-- Operations on a `TikhonovSolver`. -/
inductive TikOp (K : Type)
  | setReg (G : Option (RegArg K))
  | setMethod (m : Option TikMethod)
  | fit (D Z : NdArg K)
  | reset

omit [IsStrictOrderedRing K] in
/-- One operation; assigning an unknown method (`none`) is a `ValueError`. -/
def Tik.step (s : Tik (Mat K) K) : TikOp K → Tik (Mat K) K × Except Err Unit
  | .setReg G => s.setReg G
  | .setMethod none => (s, .error .value)
  | .setMethod (some m) => ({ s with method := m }, .ok ())
  | .fit D Z => s.fit1 D Z
  | .reset => (s.reset, .ok ())

/-- A history. -/
def Tik.run (s : Tik (Mat K) K) (ops : List (TikOp K)) : Tik (Mat K) K :=
  ops.foldl (fun s op => (s.step op).1) s

/-- No `fit` in the history is refused because of the regularizer's shape. -/
def Tik.fitsOk (s : Tik (Mat K) K) : List (TikOp K) → Prop
  | [] => True
  | op :: ops => (match op with
      | .fit D Z => ∀ D' Z', templateFit D Z = .ok (D', Z') → (s.fit1 D Z).2 = .ok ()
      | _ => True) ∧ Tik.fitsOk (s.step op).1 ops

/-- The precomputed quantities belong to the stored data. -/
def Tik.Cons {R : Type} (s : Tik R K) : Prop :=
  ∀ D Z, s.data = some (D, Z) → Z.ncols = D.nrows ∧ s.pre = some (tikPre D Z)

omit [IsStrictOrderedRing K] in
theorem Tik.Cons.step {s : Tik (Mat K) K} (h : s.Cons) (op : TikOp K)
    (hok : match op with
      | .fit D Z => ∀ D' Z', templateFit D Z = .ok (D', Z') → (s.fit1 D Z).2 = .ok ()
      | _ => True) : (s.step op).1.Cons := by
  cases op with
  | setReg G =>
    cases G with
    | none => exact h
    | some G =>
      simp only [Tik.step, Tik.setReg]
      cases hG : G.toMat with
      | error e => exact h
      | ok G' =>
        dsimp only
        have h' : ({ s with reg := some G' } : Tik (Mat K) K).Cons := h
        cases hd : s.data with
        | none => simpa only [hd] using h'
        | some x => simpa only [hd] using h'
  | setMethod m => cases m <;> exact h
  | fit D Z =>
    simp only at hok
    simp only [Tik.step]
    unfold Tik.fit1 Tik.fit at hok ⊢
    cases ht : templateFit D Z with
    | error e => exact h
    | ok x =>
      obtain ⟨D', Z'⟩ := x
      have := hok D' Z' ht
      simp only [ht] at this
      dsimp only
      split
      · rename_i e he
        rw [he] at this
        cases this
      · intro D1 Z1 hd
        cases hd
        exact ⟨(templateFit_ok ht).2, rfl⟩
  | reset => exact fun D Z hd => by cases hd

omit [IsStrictOrderedRing K] in
/-- **C28** (`TikhonovSolver`, partial): as long as no `fit` is refused because of the shape of the
regularizer, `solve()` answers for the regularizer, method and data the solver currently holds, even
after rejected assignments; namely like a fresh solver fitted to that data which is then given that
regularizer. The general statement is false: see `C28_tikhonov_stale`. -/
theorem C28_tikhonov_consistent_partial (lstsq posSolve : Mat K → Mat K → Except Err (Mat K))
    (reg : Option (Mat K)) (m : TikMethod) (ops : List (TikOp K))
    (hok : Tik.fitsOk ⟨reg, m, none, none⟩ ops) :
    let s := (⟨reg, m, none, none⟩ : Tik (Mat K) K).run ops
    s.solve lstsq posSolve = match s.data with
      | none => .error .attribute
      | some (D, Z) => ({ ((⟨none, s.method, none, none⟩ : Tik (Mat K) K).fit1 (.mat D) (.mat Z)).1 with
          reg := s.reg } : Tik (Mat K) K).solve lstsq posSolve := by
  intro s
  have hcons : s.Cons := by
    have : ∀ (t : Tik (Mat K) K), t.Cons → t.fitsOk ops → (t.run ops).Cons := by
      clear_value s
      clear hok
      induction ops with
      | nil => exact fun t ht _ => ht
      | cons op ops ih => exact fun t ht hf => ih _ (ht.step op hf.1) hf.2
    exact this _ (fun D Z hd => by cases hd) hok
  clear_value s
  cases hd : s.data with
  | none => simp [Tik.solve, hd]
  | some x =>
    obtain ⟨D, Z⟩ := x
    obtain ⟨hk, hp⟩ := hcons D Z hd
    simp only [Tik.fit1, Tik.fit, templateFit_mat D Z hk]
    simp only [Tik.solve, hd, hp]

omit [IsStrictOrderedRing K] [LinearOrder K] in
/-- **C28**: whatever happened before, a successful `fit` makes the solver consistent. -/
theorem C28_tikhonov_fit_restores (s : Tik (Mat K) K) (D Z : Mat K) (h : (s.fit1 (.mat D) (.mat Z)).2 = .ok ()) :
    (s.fit1 (.mat D) (.mat Z)).1 = ⟨s.reg, s.method, some (D, Z), some (tikPre D Z)⟩ := by
  unfold Tik.fit1 Tik.fit at h ⊢
  cases ht : templateFit (.mat D) (.mat Z) with
  | error e => rw [ht] at h; cases h
  | ok x =>
    obtain ⟨D', Z'⟩ := x
    have hx : (D', Z') = (D, Z) := by
      simp only [templateFit] at ht
      split at ht
      · cases ht
      · cases ht; rfl
    cases hx
    simp only [ht] at h ⊢
    split
    · rename_i e he; rw [he] at h; cases h
    · rfl

end

/-! ### C28: the negation -/

/-- First training set: three snapshots, one column. -/
def stD1 : Mat ℚ := ⟨3, 1, [[1], [1], [1]]⟩
/-- Its left-hand side. -/
def stZ1 : Mat ℚ := ⟨1, 3, [[1, 2, 3]]⟩
/-- Second training set: two snapshots, two columns. -/
def stD2 : Mat ℚ := ⟨2, 2, [[1, 0], [0, 1]]⟩
/-- Its left-hand side. -/
def stZ2 : Mat ℚ := ⟨1, 2, [[1, 1]]⟩

/-- The history: fit, a refit that is refused because the regularizer does not fit the new data, and
then the assignment of a regularizer that does. -/
def stOps : List (TikOp ℚ) :=
  [.setReg (some (.diag [1])), .fit (.mat stD1) (.mat stZ1), .fit (.mat stD2) (.mat stZ2),
    .setReg (some (.diag [1, 1]))]

/-- Least-squares solution of `[I; I] x = b`, the only system the example needs. -/
def stLstsq (_ B : Mat ℚ) : Except Err (Mat ℚ) :=
  .ok ⟨2, 1, [[((B.rows.getD 0 []).getD 0 0 + (B.rows.getD 2 []).getD 0 0) / 2],
    [((B.rows.getD 1 []).getD 0 0 + (B.rows.getD 3 []).getD 0 0) / 2]]⟩

/-- **C28** (negation for `TikhonovSolver`): after a refused refit, `solve()` can silently combine
the new data matrix with the old left-hand side. In this history the last assignment succeeds, the
solver holds `D = I`, `Z = [1, 1]`, `Γ = I`, and for *every* routine returning least-squares solutions
of the systems it is given, the result is `[2, 1]`, which does not minimise the objective
(`[1/2, 1/2]` does). -/
theorem C28_tikhonov_stale :
    let s := (⟨none, .lstsq, none, none⟩ : Tik (Mat ℚ) ℚ).run stOps
    s.data = some (stD2, stZ2) ∧ s.reg = some (Mat.eye ℚ 2) ∧
    (∀ (lstsq posSolve : Mat ℚ → Mat ℚ → Except Err (Mat ℚ)) (X : Mat ℚ),
      lstsq (stackMat stD2 (Mat.eye ℚ 2)) (padRhs 1 stZ1) = .ok X →
      IsLstsq (stackMat stD2 (Mat.eye ℚ 2)) (padRhs 1 stZ1) X →
      s.solve lstsq posSolve = .ok ⟨1, 2, [[2, 1]]⟩) ∧
    ¬ Minimises (objTik stD2 (Mat.eye ℚ 2) [1, 1]) 2 [2, 1] := by
  intro s
  have hs : s = ⟨some (Mat.eye ℚ 2), .lstsq, some (stD2, stZ2), some (tikPre stD1 stZ1)⟩ := by
    decide +kernel
  refine ⟨by rw [hs], by rw [hs], ?_, ?_⟩
  · intro lstsq posSolve X hX hls
    have hc : X.ncols = 1 := hls.cols
    have hmin := hls.min 0 (by decide)
    -- the least-squares solution is unique
    have hx : col X.rows 0 = [2, 1] := by
      have e1 := hmin.2 [2, 1] rfl
      have hlen : (col X.rows 0).length = 2 := hmin.1
      obtain ⟨a, b, hab⟩ := length_eq_two.mp hlen
      rw [hab] at e1 ⊢
      have e2 : col (padRhs 1 stZ1).rows 0 = [1, 2, 3, 0] := by decide +kernel
      have e3 : (stackMat stD2 (Mat.eye ℚ 2)).rows = [[1, 0], [0, 1], [1, 0], [0, 1]] := by
        decide +kernel
      rw [e2, e3] at e1
      simp [matVec, dot, vsub, sumSq] at e1
      have ha : a = 2 := by nlinarith [sq_nonneg (a - 2), sq_nonneg (b - 1)]
      have hb : b = 1 := by nlinarith [sq_nonneg (a - 2), sq_nonneg (b - 1)]
      rw [ha, hb]
    rw [hs]
    simp only [Tik.solve, tikPre_eq]
    rw [tikSolve_lstsq lstsq posSolve stD2 (Mat.eye ℚ 2) _ _ _ rfl (by decide), show stD1.ncols = 1 from rfl, hX]
    have ht : X.t = ⟨1, 2, [col X.rows 0]⟩ := by
      have h2 : X.nrows = 2 := hls.rows
      have h3 : X.t.rows = [col X.rows 0] := by rw [Mat.t_rows_eq, hc]; rfl
      rw [← h3, ← h2, ← hc]; rfl
    change Except.ok X.t = _
    rw [ht, hx]
  · intro h
    have := h.2 [1 / 2, 1 / 2] rfl
    revert this
    decide +kernel

-- a routine as assumed in the theorem exists
example : ∃ X, stLstsq (stackMat stD2 (Mat.eye ℚ 2)) (padRhs 1 stZ1) = .ok X ∧
    IsLstsq (stackMat stD2 (Mat.eye ℚ 2)) (padRhs 1 stZ1) X := by
  refine ⟨⟨2, 1, [[2], [1]]⟩, by decide +kernel, by decide, rfl, rfl, ?_⟩
  intro j hj
  have hj0 : j = 0 := by have : j < 1 := hj; omega
  subst hj0
  refine ⟨rfl, fun o ho => ?_⟩
  obtain ⟨a, b, rfl⟩ := length_eq_two.mp ho
  have e2 : col (padRhs 1 stZ1).rows 0 = [1, 2, 3, 0] := by decide +kernel
  have e3 : (stackMat stD2 (Mat.eye ℚ 2)).rows = [[1, 0], [0, 1], [1, 0], [0, 1]] := by
    decide +kernel
  rw [e2, e3]
  simp [matVec, dot, vsub, sumSq, col]
  nlinarith [sq_nonneg (a - 2), sq_nonneg (b - 1)]
-- and the true minimiser is what a fresh solver returns
example : ((⟨some (Mat.eye ℚ 2), .lstsq, none, none⟩ : Tik (Mat ℚ) ℚ).fit1 (.mat stD2)
    (.mat stZ2)).1.solve stLstsq stLstsq = .ok ⟨1, 2, [[1 / 2, 1 / 2]]⟩ := by decide +kernel

section

variable [Field K] [LinearOrder K]

/-- Operations on a `TikhonovDecoupledSolver`. -/
inductive TikDecOp (K : Type)
  | setReg (Gs : Option (List (RegArg K)))
  | setMethod (m : Option TikMethod)
  | fit (D Z : NdArg K)
  | reset

/-- One operation. -/
def Tik.stepDec (s : Tik (List (Mat K)) K) : TikDecOp K → Tik (List (Mat K)) K × Except Err Unit
  | .setReg G => s.setRegs G
  | .setMethod none => (s, .error .value)
  | .setMethod (some m) => ({ s with method := m }, .ok ())
  | .fit D Z => s.fitDec D Z
  | .reset => (s.reset, .ok ())

/-- A history. -/
def Tik.runDec (s : Tik (List (Mat K)) K) (ops : List (TikDecOp K)) : Tik (List (Mat K)) K :=
  ops.foldl (fun s op => (s.stepDec op).1) s

/-- No `fit` in the history is refused because of the regularizers. -/
def Tik.fitsOkDec (s : Tik (List (Mat K)) K) : List (TikDecOp K) → Prop
  | [] => True
  | op :: ops => (match op with
      | .fit D Z => ∀ D' Z', templateFit D Z = .ok (D', Z') → (s.fitDec D Z).2 = .ok ()
      | _ => True) ∧ Tik.fitsOkDec (s.stepDec op).1 ops

theorem Tik.Cons.stepDec {s : Tik (List (Mat K)) K} (h : s.Cons) (op : TikDecOp K)
    (hok : match op with
      | .fit D Z => ∀ D' Z', templateFit D Z = .ok (D', Z') → (s.fitDec D Z).2 = .ok ()
      | _ => True) : (s.stepDec op).1.Cons := by
  cases op with
  | setReg G =>
    cases G with
    | none => exact h
    | some G =>
      simp only [Tik.stepDec, Tik.setRegs]
      cases hG : G.mapM RegArg.toMat with
      | error e => exact h
      | ok G' =>
        dsimp only
        have h' : ({ s with reg := some G' } : Tik (List (Mat K)) K).Cons := h
        cases hd : s.data with
        | none => simpa only [hd] using h'
        | some x => simpa only [hd] using h'
  | setMethod m => cases m <;> exact h
  | fit D Z =>
    simp only at hok
    simp only [Tik.stepDec]
    unfold Tik.fitDec Tik.fit at hok ⊢
    cases ht : templateFit D Z with
    | error e => exact h
    | ok x =>
      obtain ⟨D', Z'⟩ := x
      have := hok D' Z' ht
      simp only [ht] at this
      dsimp only
      split
      · rename_i e he
        rw [he] at this
        cases this
      · intro D1 Z1 hd
        cases hd
        exact ⟨(templateFit_ok ht).2, rfl⟩
  | reset => exact fun D Z hd => by cases hd

/-- **C28** (`TikhonovDecoupledSolver`, partial): as long as no `fit` is refused because of the
regularizers, `solve()` answers for the current regularizers, method and data. The general statement
is false: see `C28_tikdec_stale`. -/
theorem C28_tikdec_consistent_partial (junk : K) (lstsq posSolve : Mat K → Mat K → Except Err (Mat K))
    (reg : Option (List (Mat K))) (m : TikMethod) (ops : List (TikDecOp K))
    (hok : Tik.fitsOkDec ⟨reg, m, none, none⟩ ops) :
    let s := (⟨reg, m, none, none⟩ : Tik (List (Mat K)) K).runDec ops
    s.solveDec junk lstsq posSolve = match s.data with
      | none => .error .attribute
      | some (D, Z) => ({ ((⟨none, s.method, none, none⟩ : Tik (List (Mat K)) K).fitDec (.mat D)
          (.mat Z)).1 with reg := s.reg } : Tik (List (Mat K)) K).solveDec junk lstsq posSolve := by
  intro s
  have hcons : s.Cons := by
    have : ∀ (t : Tik (List (Mat K)) K), t.Cons → t.fitsOkDec ops → (t.runDec ops).Cons := by
      clear_value s
      clear hok
      induction ops with
      | nil => exact fun t ht _ => ht
      | cons op ops ih => exact fun t ht hf => ih _ (ht.stepDec op hf.1) hf.2
    exact this _ (fun D Z hd => by cases hd) hok
  clear_value s
  cases hd : s.data with
  | none => simp [Tik.solveDec, hd]
  | some x =>
    obtain ⟨D, Z⟩ := x
    obtain ⟨hk, hp⟩ := hcons D Z hd
    simp only [Tik.fitDec, Tik.fit, templateFit_mat D Z hk]
    simp only [Tik.solveDec, hd, hp]

end

/-- Data of the next example. -/
def sdD : Mat ℚ := ⟨1, 1, [[1]]⟩
/-- Left-hand side with two rows. -/
def sdZ1 : Mat ℚ := ⟨2, 1, [[1], [2]]⟩
/-- Left-hand side with one row. -/
def sdZ2 : Mat ℚ := ⟨1, 1, [[5]]⟩

/-- **C28** (negation for `TikhonovDecoupledSolver`): refitting with fewer rows is refused (two
regularizers, one row); assigning one regularizer then succeeds, and `solve()` answers `1/2`, the
solution for the *old* left-hand side, while the solver holds `Z = [5]`, whose solution is `5/2`. -/
theorem C28_tikdec_stale :
    let s := (⟨none, .lstsq, none, none⟩ : Tik (List (Mat ℚ)) ℚ).runDec
      [.setReg (some [.diag [1], .diag [1]]), .fit (.mat sdD) (.mat sdZ1), .fit (.mat sdD) (.mat sdZ2),
        .setReg (some [.diag [1]])]
    s.data = some (sdD, sdZ2) ∧ s.reg = some [Mat.eye ℚ 1] ∧
    (∀ (lstsq posSolve : Mat ℚ → Mat ℚ → Except Err (Mat ℚ)) (X : Mat ℚ),
      lstsq ⟨2, 1, [[1], [1]]⟩ ⟨2, 1, [[1], [0]]⟩ = .ok X →
      IsLstsq ⟨2, 1, [[1], [1]]⟩ ⟨2, 1, [[1], [0]]⟩ X →
      s.solveDec 0 lstsq posSolve = .ok ⟨1, 1, [[1 / 2]]⟩) ∧
    ¬ Minimises (objTik sdD (Mat.eye ℚ 1) [5]) 1 [1 / 2] := by
  intro s
  have hs : s = ⟨some [Mat.eye ℚ 1], .lstsq, some (sdD, sdZ2), some (tikPre sdD sdZ1)⟩ := by
    decide +kernel
  refine ⟨by rw [hs], by rw [hs], ?_, ?_⟩
  · intro lstsq posSolve X hX hls
    have hc : X.ncols = 1 := hls.cols
    have hr : X.nrows = 1 := hls.rows
    have hmin := hls.min 0 (by decide)
    have hx : col X.rows 0 = [1 / 2] := by
      have e1 := hmin.2 [1 / 2] rfl
      have hlen : (col X.rows 0).length = 1 := hmin.1
      obtain ⟨a, ha⟩ := length_eq_one_iff.mp hlen
      rw [ha] at e1 ⊢
      simp [matVec, dot, vsub, sumSq, col] at e1
      have : a = 1 / 2 := by nlinarith [sq_nonneg (a - 1 / 2)]
      rw [this]
    have hp : (tikPre sdD sdZ1).ZtPad.colMat 0 = ⟨2, 1, [[1], [0]]⟩ := by decide +kernel
    have hst : stackMat sdD (Mat.eye ℚ 1) = ⟨2, 1, [[1], [1]]⟩ := by decide +kernel
    have e : tikSolve lstsq posSolve .lstsq sdD (Mat.eye ℚ 1) ((tikPre sdD sdZ1).ZtPad.colMat 0)
        (tikPre sdD sdZ1).DtD ((tikPre sdD sdZ1).DtZt.colMat 0) = .ok X := by
      rw [tikSolve_lstsq lstsq posSolve sdD (Mat.eye ℚ 1) _ _ _ rfl (by decide), hp, hst, hX]
    rw [hs]
    simp only [Tik.solveDec, zipIdx_cons, zipIdx_nil, mapM_cons, mapM_nil]
    rw [e]
    simp only [bind, Except.bind, pure, Except.pure]
    rw [if_neg (by decide)]
    simp only [hr]
    have hx' : (X.rows.map fun row => row.getD 0 0) = [1 / 2] := hx
    rw [if_neg (by decide)]
    simp only [hx']
    rfl
  · intro h
    have := h.2 [5 / 2] rfl
    revert this
    decide +kernel

/-! ### Concrete witnesses -/

-- C24: a system for which both routines are as assumed and the methods agree
example : ((⟨some (Mat.eye ℚ 2), .normal, none, none⟩ : Tik (Mat ℚ) ℚ).fit1 (.mat stD2)
    (.mat stZ2)).1.solve stLstsq (fun _ B => .ok (B.smul (1 / 2))) = .ok ⟨1, 2, [[1 / 2, 1 / 2]]⟩ := by
  decide +kernel
example : normalMat stD2 (Mat.eye ℚ 2) = ⟨2, 2, [[2, 0], [0, 2]]⟩ := by decide +kernel
example : IsSolution (normalMat stD2 (Mat.eye ℚ 2)) (normalRhs stD2 stZ2)
    ((normalRhs stD2 stZ2).smul (1 / 2)) := by
  refine ⟨by decide +kernel, rfl, rfl, ?_⟩
  intro j hj
  have hj0 : j = 0 := by have : j < 1 := hj; omega
  subst hj0
  decide +kernel
example : ∀ y : List ℚ, y.length = 2 → matVec (normalMat stD2 (Mat.eye ℚ 2)).rows y = replicate 2 0 →
    y = replicate 2 0 := by
  intro y hy
  obtain ⟨a, b, rfl⟩ := length_eq_two.mp hy
  rw [show (normalMat stD2 (Mat.eye ℚ 2)).rows = [[2, 0], [0, 2]] by decide +kernel]
  simp [matVec, dot]
-- C25: constant + linear + quadratic for r = 2
example : operatorRegularizer [(.const, false), (.lin, false), (.kron .quad, false)]
    ([1, 2, 3] : List ℚ) 2 0 = .ok [1, 2, 2, 3, 3, 3] := by decide +kernel
example : operatorRegularizer [(.inp, true)] ([1] : List ℚ) 2 0 = .error .value := by decide +kernel
-- C23: two regularizers
example : ((⟨some [Mat.eye ℚ 1, Mat.diag [2]], .normal, none, none⟩ : Tik (List (Mat ℚ)) ℚ).fitDec
    (.mat sdD) (.mat sdZ1)).1.solveDec 0 (fun _ _ => .error .linalg)
    (fun A B => .ok (B.smul (A.rows.head!.head!)⁻¹)) = .ok ⟨2, 1, [[1 / 2], [2 / 5]]⟩ := by
  decide +kernel
-- C29
example : (⟨some (Mat.eye ℚ 2), .normal, some (stD2, stZ2), none⟩ : Tik (Mat ℚ) ℚ).regresidual
    (.mat ⟨1, 2, [[2, 1]]⟩) = .ok [6] := by decide +kernel

/-- Nonnegative diagonal entries are accepted, negative ones are not. -/
example : ((⟨none, .lstsq, none, none⟩ : Tik (Mat ℚ) ℚ).setReg (some (.diag [2, 0]))).2 = .ok () ∧
    ((⟨none, .lstsq, none, none⟩ : Tik (Mat ℚ) ℚ).setReg (some (.diag [2, -1]))).2 = .error .value := by
  decide +kernel

/-- Parameters for `get_operator_regularizer` as in `C25_assigned`. -/
example : operatorRegularizer [(OpKind.const, false), (.lin, false)] [(3 : ℚ), 1/2] 2 0 = .ok [3, 1/2, 1/2] := by
  decide +kernel

end Opinf
