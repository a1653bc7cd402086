import Verif.Props.LstsqSpec

/-!
# C22, C23, C29, C28: `L2Solver` and `L2DecoupledSolver`
-/

namespace Opinf

open List

variable {K : Type}

/-! ### Helpers -/

theorem templateFit_mat (D Z : Mat K) (h : Z.ncols = D.nrows) :
    templateFit (.mat D) (.mat Z) = .ok (D, Z) := by
  simp [templateFit, h]

/-- State after a successful `fit`. -/
theorem L2.fit_ok {R : Type} [Semiring K] (svd : Mat K → Except Err (Svd K)) (s : L2 R K) (D Z : Mat K)
    (h : Z.ncols = D.nrows) (u : Svd K) (hu : svd D = .ok u) :
    s.fit svd (.mat D) (.mat Z) =
      (⟨s.reg, some (D, Z), some ⟨u.s, Z.mul u.Phi, u.PsiT⟩⟩, .ok ()) := by
  simp only [L2.fit, templateFit_mat D Z h, hu]

theorem getD_zipWith_mul [MulZeroClass K] (a b : List K) (j : Nat) :
    (zipWith (· * ·) a b).getD j 0 = a.getD j 0 * b.getD j 0 := by
  simp only [getD_eq_getElem?_getD, getElem?_zipWith]
  cases ha : a[j]? <;> cases hb : b[j]? <;> simp

section

variable [Field K]

/-- One row of the L2 solution satisfies the normal equations. -/
theorem l2Row_normal (D : Mat K) (u : Svd K) (h : IsSVD D u) (lam : K) (z : List K)
    (hz : z.length = D.nrows) (h0 : ∀ x ∈ u.s, x ^ 2 + lam ^ 2 ≠ 0) (zp : Mat K) (y : List K)
    (hy : y.length = D.ncols) :
    let o := l2Row ⟨u.s, zp, u.PsiT⟩ lam (vecMat u.Phi.ncols z u.Phi.rows)
    o.length = D.ncols ∧
    dot (matVec D.rows y) (vsub (matVec D.rows o) z) + lam ^ 2 * dot y o = 0 := by
  intro o
  have hPhi := h.phiCols ▸ h.phiWF.2
  have hPsi := h.psiWF.2
  have hg : (vecMat u.Phi.ncols z u.Phi.rows).length = u.s.length := by
    rw [length_vecMat _ _ _ h.phiWF.2, h.phiCols]
  have ho : o.length = D.ncols := by
    rw [← h.psiCols]; exact length_vecMat _ _ _ hPsi
  refine ⟨ho, ?_⟩
  rw [h.recon y hy, h.recon o ho]
  refine spectral_normal u.Phi.rows u.PsiT.rows u.s.length u.PsiT.ncols u.s _ z lam hPhi hPsi
    (h.psiWF.1.trans h.psiRows) rfl ?_ ?_ h.orthPhi h.orthPsi ?_ y
  · simp [hg]
  · rw [hz, ← h.phiRows, h.phiWF.1]
  · intro j hj
    have hj' : u.s[j] ∈ u.s := getElem_mem hj
    have e : (u.s.map fun s => s / (s ^ 2 + lam ^ 2)).getD j 0 =
        u.s[j] / (u.s[j] ^ 2 + lam ^ 2) := by
      simp [getD_eq_getElem?_getD, hj]
    have e' : u.s.getD j 0 = u.s[j] := by simp [getD_eq_getElem?_getD, hj]
    rw [getD_zipWith_mul, e, e', h.phiCols]
    have := h0 _ hj'
    field_simp

/-- Excess of the L2 objective over its value at a solution of the normal equations. -/
theorem objL2_excess (D : Mat K) (hD : D.WF) (lam : K) (z o y : List K) (hz : z.length = D.nrows)
    (ho : o.length = D.ncols) (hy : y.length = D.ncols)
    (hn : ∀ y, y.length = D.ncols →
      dot (matVec D.rows y) (vsub (matVec D.rows o) z) + lam ^ 2 * dot y o = 0) :
    objL2 D lam z y = objL2 D lam z o +
      (sumSq (matVec D.rows (vsub y o)) + lam ^ 2 * sumSq (vsub y o)) := by
  have := pythagoras (matVec D.rows) (vsmul lam) D.ncols D.nrows D.ncols
    (fun y _ => by rw [length_matVec, hD.1]) (fun y h => by simpa using h)
    (fun a b ha hb => matVec_vsub _ _ _ (ha.trans hb.symm))
    (fun a b _ _ => by simp only [vsmul, vsub, map_zipWith, zipWith_map]; congr 1; funext x y; ring)
    z o y hz ho hy
    (fun y hy => by rw [dot_vsmul_left, dot_vsmul_right, ← hn y hy]; ring)
  simp only [sumSq_vsmul] at this
  exact this

variable [LinearOrder K] [IsStrictOrderedRing K]

/-- What `L2Solver.solve()` promises for one row: it minimises the objective; the minimiser is unique
for `λ ≠ 0`; for `λ = 0` it has the smallest norm among the minimisers. -/
def L2RowSpec (D : Mat K) (lam : K) (z o : List K) : Prop :=
  Minimises (objL2 D lam z) D.ncols o ∧
  (lam ≠ 0 → ∀ o', Minimises (objL2 D lam z) D.ncols o' → o' = o) ∧
  (lam = 0 → ∀ o', Minimises (objL2 D lam z) D.ncols o' → sumSq o ≤ sumSq o')

theorem l2Row_spec (D : Mat K) (hD : D.WF) (u : Svd K) (h : IsSVD D u) (lam : K) (z : List K)
    (hz : z.length = D.nrows) (h0 : ∀ x ∈ u.s, x ^ 2 + lam ^ 2 ≠ 0) (zp : Mat K) :
    L2RowSpec D lam z (l2Row ⟨u.s, zp, u.PsiT⟩ lam (vecMat u.Phi.ncols z u.Phi.rows)) := by
  set o := l2Row ⟨u.s, zp, u.PsiT⟩ lam (vecMat u.Phi.ncols z u.Phi.rows) with hodef
  have key := fun y hy => l2Row_normal D u h lam z hz h0 zp y hy
  have ho : o.length = D.ncols := (key (replicate D.ncols 0) (by simp)).1
  have hex := fun y hy => objL2_excess D hD lam z o y hz ho hy (fun y hy => (key y hy).2)
  have hmin : Minimises (objL2 D lam z) D.ncols o := by
    refine ⟨ho, fun y hy => ?_⟩
    rw [hex y hy]
    have h1 := sumSq_nonneg (matVec D.rows (vsub y o))
    have h2 := mul_nonneg (sq_nonneg lam) (sumSq_nonneg (vsub y o))
    linarith
  refine ⟨hmin, ?_, ?_⟩
  · intro hl y hy
    have e1 := hex y hy.1
    have e2 := hy.2 o ho
    have h1 := sumSq_nonneg (matVec D.rows (vsub y o))
    have h2 := mul_nonneg (sq_nonneg lam) (sumSq_nonneg (vsub y o))
    have e3 : lam ^ 2 * sumSq (vsub y o) = 0 := by linarith
    have e4 := (mul_eq_zero.mp e3).resolve_left (pow_ne_zero 2 hl)
    have e5 := sumSq_eq_zero _ e4
    refine vsub_eq_zero y o (hy.1.trans ho.symm) ?_
    rw [e5]; simp [hy.1, ho]
  · intro hl y hy
    have e1 := hex y hy.1
    have e2 := hy.2 o ho
    have h1 := sumSq_nonneg (matVec D.rows (vsub y o))
    rw [hl] at e1 e2
    have e3 : sumSq (matVec D.rows (vsub y o)) = 0 := by
      simp only [ne_eq, OfNat.ofNat_ne_zero, not_false_eq_true, zero_pow, zero_mul, add_zero] at e1
      linarith
    have hyo : (vsub y o).length = D.ncols := by simp [hy.1, ho]
    have hw : (matVec u.PsiT.rows (vsub y o)).length = u.s.length := by
      simp [h.psiWF.1, h.psiRows]
    -- the component of `y - o` in the row space vanishes
    have e4 : matVec u.PsiT.rows (vsub y o) = replicate u.s.length 0 := by
      rw [h.recon _ hyo, sumSq_eq_dot, h.orthPhi _ _ (by simp [hw]) (by simp [hw])] at e3
      have e5 := dot_self_eq_zero _ e3
      apply ext_getElem
      · simp [hw]
      · intro j h1 h2
        have hj : j < u.s.length := by simpa using h2
        have e6 : (zipWith (· * ·) u.s (matVec u.PsiT.rows (vsub y o))).getD j 0 = 0 := by
          rw [e5]; simp [getD_eq_getElem?_getD, getElem?_replicate]; split <;> rfl
        rw [getD_zipWith_mul] at e6
        have e7 : u.s.getD j 0 ≠ 0 := by
          have := h0 _ (getElem_mem hj)
          rw [hl] at this
          simp only [getD_eq_getElem?_getD, getElem?_eq_getElem hj, Option.getD_some]
          intro hc; rw [hc] at this; simp at this
        have e8 := (mul_eq_zero.mp e6).resolve_left e7
        rw [getD_eq_getElem?_getD, getElem?_eq_getElem h1] at e8
        simpa using e8
    -- hence `y - o` is orthogonal to `o`
    have hoc : ∃ c, ∀ w, dot o w = dot c (matVec u.PsiT.rows w) :=
      ⟨_, fun w => dot_vecMat _ _ _ w h.psiWF.2⟩
    obtain ⟨c, hoc⟩ := hoc
    have e9 : dot (vsub y o) o = 0 := by
      rw [dot_comm', hoc, e4, dot_comm', dot_replicate_zero]
    rw [dot_vsub_left _ _ _ (hy.1.trans ho.symm), ← sumSq_eq_dot] at e9
    have e10 := sumSq_vsub y o (hy.1.trans ho.symm)
    have := sumSq_nonneg (vsub y o)
    linarith

/-! ### C22 -/

/-- **C22**: fitting an `L2Solver` with regularization parameter `λ` to `D`, `Z` and solving returns,
row by row, the minimiser of `‖D o − z‖² + λ²‖o‖²`; the minimiser is unique for `λ ≠ 0` and the one of
least norm for `λ = 0`. The only exception: `λ = 0` together with a zero singular value gives NaN/Inf. -/
theorem C22_l2_minimises (svd : Mat K → Except Err (Svd K)) (s : L2 K K) (D Z : Mat K) (hD : D.WF)
    (hZ : Z.WF) (hk : Z.ncols = D.nrows) (u : Svd K) (hu : svd D = .ok u) (hsvd : IsSVD D u) (lam : K)
    (hreg : s.reg = some lam) :
    ∃ s', s.fit svd (.mat D) (.mat Z) = (s', .ok ()) ∧
      ((lam = 0 ∧ (0 : K) ∈ u.s) → s'.solve = .error .nonfinite) ∧
      (¬ (lam = 0 ∧ (0 : K) ∈ u.s) → ∃ O : Mat K, s'.solve = .ok O ∧ O.WF ∧
        O.nrows = Z.nrows ∧ O.ncols = D.ncols ∧ Forall₂ (L2RowSpec D lam) Z.rows O.rows) := by
  refine ⟨_, L2.fit_ok svd s D Z hk u hu, ?_, ?_⟩
  · rintro ⟨hl, h0⟩
    simp only [L2.solve, hreg]
    rw [if_pos]
    rw [any_eq_true]
    exact ⟨0, h0, by simp [hl]⟩
  · intro hne
    have h0 : ∀ x ∈ u.s, x ^ 2 + lam ^ 2 ≠ 0 := by
      intro x hx hc
      have h1 := sq_nonneg x
      have h2 := sq_nonneg lam
      have hx0 : x = 0 := by apply pow_eq_zero_iff (two_ne_zero) |>.mp; linarith
      have hl0 : lam = 0 := by apply pow_eq_zero_iff (two_ne_zero) |>.mp; linarith
      exact hne ⟨hl0, hx0 ▸ hx⟩
    have hif : (u.s.any fun x => decide (x ^ 2 + lam ^ 2 = 0)) = false := by
      rw [any_eq_false]
      intro x hx
      simpa using h0 x hx
    refine ⟨⟨Z.nrows, u.PsiT.ncols, (Z.mul u.Phi).rows.map (l2Row ⟨u.s, Z.mul u.Phi, u.PsiT⟩ lam)⟩,
      by simp only [L2.solve, hreg, hif]; rfl, ?_, rfl, hsvd.psiCols, ?_⟩
    · refine ⟨by simp [Mat.mul, matMul, hZ.1], ?_⟩
      intro row hrow
      simp only [mem_map] at hrow
      obtain ⟨z, -, rfl⟩ := hrow
      exact length_vecMat _ _ _ hsvd.psiWF.2
    · simp only [Mat.mul, matMul, map_map]
      rw [forall₂_map_right_iff, forall₂_same]
      intro z hz
      exact l2Row_spec D hD u hsvd lam z (by rw [hZ.2 z hz, hk]) h0 _

/-- `‖D Oᵀ − Zᵀ‖_F² + λ²‖O‖_F²`. -/
def frobL2 (D Z : Mat K) (lam : K) (O : Mat K) : K :=
  (zipWith (fun z o => sumSq (vsub (matVec D.rows o) z)) Z.rows O.rows).sum +
    lam ^ 2 * (O.rows.map sumSq).sum

omit [LinearOrder K] [IsStrictOrderedRing K] in
theorem frobL2_eq (D Z : Mat K) (lam : K) (O : Mat K) (h : Z.rows.length = O.rows.length) :
    frobL2 D Z lam O = (zipWith (objL2 D lam) Z.rows O.rows).sum := by
  rw [frobL2]
  generalize Z.rows = Zr at h ⊢
  generalize O.rows = Or at h ⊢
  induction Zr generalizing Or with
  | nil => obtain rfl := length_eq_zero_iff.mp h.symm; simp
  | cons z Zr ih =>
    cases Or with
    | nil => simp at h
    | cons o Or =>
      have := ih Or (by simpa using h)
      simp only [zipWith_cons_cons, sum_cons, map_cons, objL2] at this ⊢
      linear_combination this

theorem sum_le_of_rows {J : List K → List K → K} {d : Nat} (Zr Or Or' : List (List K))
    (h : Forall₂ (fun z o => Minimises (J z) d o) Zr Or) (hl : Or'.length = Zr.length)
    (hw : ∀ o ∈ Or', o.length = d) : (zipWith J Zr Or).sum ≤ (zipWith J Zr Or').sum := by
  induction h generalizing Or' with
  | nil => simp
  | cons h _ ih =>
    cases Or' with
    | nil => simp at hl
    | cons o Or' =>
      simp only [zipWith_cons_cons, sum_cons]
      exact add_le_add (h.2 o (hw o (by simp)))
        (ih Or' (by simpa using hl) (fun o ho => hw o (by simp [ho])))

/-- **C22** (Frobenius form): the returned matrix minimises `‖D Oᵀ − Zᵀ‖_F² + λ²‖O‖_F²` over all
`r × d` matrices. -/
theorem C22_l2_minimises_frobenius (svd : Mat K → Except Err (Svd K)) (s : L2 K K) (D Z : Mat K)
    (hD : D.WF) (hZ : Z.WF) (hk : Z.ncols = D.nrows) (u : Svd K) (hu : svd D = .ok u)
    (hsvd : IsSVD D u) (lam : K) (hreg : s.reg = some lam) (hne : ¬ (lam = 0 ∧ (0 : K) ∈ u.s)) :
    ∃ s' O, s.fit svd (.mat D) (.mat Z) = (s', .ok ()) ∧ s'.solve = .ok O ∧
      ∀ O' : Mat K, O'.WF → O'.nrows = Z.nrows → O'.ncols = D.ncols →
        frobL2 D Z lam O ≤ frobL2 D Z lam O' := by
  obtain ⟨s', h1, -, h2⟩ := C22_l2_minimises svd s D Z hD hZ hk u hu hsvd lam hreg
  obtain ⟨O, h3, h4, h5, h6, h7⟩ := h2 hne
  refine ⟨s', O, h1, h3, fun O' hw hr hc => ?_⟩
  rw [frobL2_eq _ _ _ _ h7.length_eq, frobL2_eq _ _ _ _ (by rw [hZ.1, hw.1, hr])]
  exact sum_le_of_rows (d := D.ncols) _ _ _ (h7.imp fun _ _ h => h.1) (by rw [hZ.1, hw.1, hr])
    (fun o ho => by rw [hw.2 o ho, hc])

omit [IsStrictOrderedRing K] in
/-- **C22** (error branches): an `L2Solver` refuses negative parameters and misaligned or wrongly
shaped data without changing, and does not solve before both data and parameter are given. -/
theorem C22_l2_rejects (svd : Mat K → Except Err (Svd K)) (s : L2 K K) :
    (∀ x, x < 0 → s.setReg (some x) = (s, .error .value)) ∧
    (∀ x, 0 ≤ x → s.setReg (some x) = ({ s with reg := some x }, .ok ())) ∧
    (∀ D Z : Mat K, Z.ncols ≠ D.nrows → s.fit svd (.mat D) (.mat Z) = (s, .error .dimensionality)) ∧
    (∀ (D : Mat K) (z : List K), z.length ≠ D.nrows →
      s.fit svd (.mat D) (.vec z) = (s, .error .dimensionality)) ∧
    (∀ (D : Mat K) (z : List K),
      s.fit svd (.mat D) (.vec z) = s.fit svd (.mat D) (.mat ⟨1, z.length, [z]⟩)) ∧
    (∀ (A : NdArg K) (x : List K), s.fit svd (.vec x) A = (s, .error .value)) ∧
    (∀ A : NdArg K, s.fit svd .other A = (s, .error .value)) ∧
    (∀ D : Mat K, s.fit svd (.mat D) .other = (s, .error .value)) ∧
    (s.data = none → s.solve = .error .attribute) ∧
    (s.reg = none → s.solve = .error .attribute) := by
  refine ⟨fun x hx => by simp [L2.setReg, hx], fun x hx => by simp [L2.setReg, not_lt.mpr hx],
    fun D Z h => by simp [L2.fit, templateFit, h], fun D Z h => by simp [L2.fit, templateFit, h],
    fun D z => rfl, fun A x => rfl, fun A => rfl, fun D => rfl, fun h => by simp [L2.solve, h],
    fun h => ?_⟩
  cases hd : s.data <;> simp [L2.solve, h, hd]

/-! ### C23 -/

omit [IsStrictOrderedRing K] in
/-- **C23** (L2): a fitted `L2DecoupledSolver` with `r` parameters gives in row `i` exactly what an
`L2Solver` with parameter `λᵢ` gives when fitted to row `i` of the left-hand side alone; it fails
(division by zero) only if one of these fails. -/
theorem C23_l2_rows_decoupled (svd : Mat K → Except Err (Svd K)) (s : L2 (List K) K) (D Z : Mat K)
    (hZ : Z.WF) (hk : Z.ncols = D.nrows) (u : Svd K) (hu : svd D = .ok u) (regs : List K)
    (hreg : s.reg = some regs) (hr : regs.length = Z.nrows) :
    ∃ s', s.fitDec svd (.mat D) (.mat Z) = (s', .ok ()) ∧
      (∀ O : Mat K, s'.solveDec = .ok O → O.rows.length = Z.nrows ∧
        ∀ i, i < Z.nrows → ∀ t : L2 K K, t.reg = some (regs.getD i 0) →
          (t.fit svd (.mat D) (.vec (Z.rows.getD i []))).1.solve =
            .ok ⟨1, O.ncols, [O.rows.getD i []]⟩) ∧
      (∀ e, s'.solveDec = .error e → ∃ i, i < Z.nrows ∧ ∀ t : L2 K K, t.reg = some (regs.getD i 0) →
          (t.fit svd (.mat D) (.vec (Z.rows.getD i []))).1.solve = .error e) := by
  set p : L2Pre K := ⟨u.s, Z.mul u.Phi, u.PsiT⟩ with hp
  have hsolve : ∀ i, i < Z.nrows → ∀ t : L2 K K, t.reg = some (regs.getD i 0) →
      (t.fit svd (.mat D) (.vec (Z.rows.getD i []))).1.solve =
        (if u.s.any (fun x => decide (x ^ 2 + regs.getD i 0 ^ 2 = 0)) then .error .nonfinite
          else .ok ⟨1, u.PsiT.ncols,
            [l2Row p (regs.getD i 0) (vecMat u.Phi.ncols (Z.rows.getD i []) u.Phi.rows)]⟩) := by
    intro i hi t ht
    have hlen : (Z.rows.getD i []).length = Z.ncols := by
      rw [getD_eq_getElem?_getD, getElem?_eq_getElem (by rw [hZ.1]; exact hi)]
      exact hZ.2 _ (getElem_mem _)
    have e : t.fit svd (.mat D) (.vec (Z.rows.getD i [])) =
        t.fit svd (.mat D) (.mat ⟨1, Z.ncols, [Z.rows.getD i []]⟩) := by
      have e0 : t.fit svd (.mat D) (.vec (Z.rows.getD i [])) =
        t.fit svd (.mat D) (.mat ⟨1, (Z.rows.getD i []).length, [Z.rows.getD i []]⟩) := rfl
      rw [e0, hlen]
    rw [e, L2.fit_ok svd t D ⟨1, Z.ncols, [Z.rows.getD i []]⟩ hk u hu]
    simp only [L2.solve, ht]
    rfl
  refine ⟨⟨some regs, some (D, Z), some p⟩, ?_, ?_, ?_⟩
  · simp only [L2.fitDec, L2.fit_ok svd s D Z hk u hu, hreg, hr, ne_eq, not_true, if_false]
    rfl
  · intro O hO
    simp only [L2.solveDec] at hO
    split at hO
    · cases hO
    · rename_i hany
      rw [if_pos (show regs.length = p.ZPhi.nrows from hr)] at hO
      cases hO
      have hzl : p.ZPhi.rows.length = Z.nrows := by simp [hp, Mat.mul, matMul, hZ.1]
      refine ⟨by simp [hzl, hr], fun i hi t ht => ?_⟩
      rw [hsolve i hi t ht, if_neg]
      · congr 2
        have h1 : i < regs.length := hr ▸ hi
        have h2 : i < Z.rows.length := hZ.1 ▸ hi
        simp only [getD_eq_getElem?_getD, getElem?_zipWith, hp, Mat.mul, matMul, getElem?_map,
          getElem?_eq_getElem h1, getElem?_eq_getElem h2, Option.map_some, Option.getD_some]
      · intro hc
        apply hany
        rw [any_eq_true]
        have h1 : i < regs.length := hr ▸ hi
        refine ⟨regs[i], getElem_mem h1, ?_⟩
        simpa only [getD_eq_getElem?_getD, getElem?_eq_getElem h1, Option.getD_some] using hc
  · intro e he
    simp only [L2.solveDec] at he
    split at he
    · rename_i hany
      cases he
      rw [any_eq_true] at hany
      obtain ⟨lam, hlam, hl⟩ := hany
      obtain ⟨i, hi, rfl⟩ := mem_iff_getElem.mp hlam
      refine ⟨i, hr ▸ hi, fun t ht => ?_⟩
      rw [hsolve i (hr ▸ hi) t ht, if_pos]
      simpa only [getD_eq_getElem?_getD, getElem?_eq_getElem hi, Option.getD_some] using hl
    · rw [if_pos (show regs.length = p.ZPhi.nrows from hr)] at he
      cases he

/-! ### C29 -/

/-- `Σ_k (Σ_j D[k,j] o[j] − z[k])²` written with indices. -/
def residualSpec (D : Mat K) (z o : List K) : K :=
  ((range D.nrows).map fun k =>
    (((range D.ncols).map fun j => (D.rows.getD k []).getD j 0 * o.getD j 0).sum - z.getD k 0) ^ 2).sum

omit [LinearOrder K] [IsStrictOrderedRing K] in
theorem residualSpec_eq (D : Mat K) (hD : D.WF) (z o : List K) (hz : z.length = D.nrows)
    (ho : o.length = D.ncols) : sumSq (vsub (matVec D.rows o) z) = residualSpec D z o := by
  rw [sumSq, residualSpec]
  congr 1
  apply ext_getElem
  · simp [hD.1, hz]
  · intro k h1 h2
    have hk : k < D.nrows := by simpa using h2
    have hk' : k < D.rows.length := hD.1 ▸ hk
    simp only [getElem_map, getElem_range, vsub, matVec, getElem_zipWith]
    have e1 : D.rows.getD k [] = D.rows[k] := by
      rw [getD_eq_getElem?_getD, getElem?_eq_getElem hk', Option.getD_some]
    have e2 : z.getD k 0 = z[k] := by
      rw [getD_eq_getElem?_getD, getElem?_eq_getElem (hz ▸ hk), Option.getD_some]
    rw [e1, e2]
    congr 2
    have hr : D.rows[k].length = D.ncols := hD.2 _ (getElem_mem hk')
    conv_lhs => rw [← map_range_getD D.rows[k], hr]
    rw [dot_range _ _ _ ho, sum_range_list]

omit [LinearOrder K] [IsStrictOrderedRing K] in
/-- **C29** (`residual`, all solvers): for an `r × d` matrix the residuals are
`Σ_k (Σ_j D[k,j] O[i,j] − Z[i,k])²`, one per row; any other shape is a `DimensionalityError` (except a
vector of length `d` when `r = 1`), and an untrained solver an `AttributeError`. -/
theorem C29_residual (D Z : Mat K) (hD : D.WF) (hZ : Z.WF) (hk : Z.ncols = D.nrows) :
    (∀ O : Mat K, O.WF → O.nrows = Z.nrows → O.ncols = D.ncols →
      residual (some (D, Z)) (.mat O) = .ok (zipWith (residualSpec D) Z.rows O.rows)) ∧
    (∀ O : Mat K, ¬ (O.nrows = Z.nrows ∧ O.ncols = D.ncols) →
      residual (some (D, Z)) (.mat O) = .error .dimensionality) ∧
    (∀ o : List K, Z.nrows = 1 → o.length = D.ncols → residual (some (D, Z)) (.vec o) =
      residual (some (D, Z)) (.mat ⟨1, D.ncols, [o]⟩)) ∧
    (∀ o : List K, ¬ (Z.nrows = 1 ∧ o.length = D.ncols) →
      residual (some (D, Z)) (.vec o) = .error .dimensionality) ∧
    (∀ O : NdArg K, residual none O = .error .attribute) := by
  refine ⟨?_, ?_, ?_, ?_, fun O => rfl⟩
  · intro O hO hr hc
    simp only [residual, checkOhat, hr, hc, and_self, if_true, bind, Except.bind, pure, Except.pure]
    congr 1
    rw [zipWith_comm]
    apply ext_getElem
    · simp
    · intro i h1 h2
      simp only [getElem_zipWith]
      refine residualSpec_eq D hD _ _ ?_ ?_
      · rw [hZ.2 _ (getElem_mem _), hk]
      · rw [hO.2 _ (getElem_mem _), hc]
  · intro O h
    simp only [residual, checkOhat, if_neg h]; rfl
  · intro o h1 h2
    simp [residual, checkOhat, h1, h2]
  · intro o h
    simp only [residual, checkOhat]
    by_cases h1 : Z.nrows = 1
    · rw [if_pos h1, if_neg (fun h2 => h ⟨h1, h2⟩)]; rfl
    · rw [if_neg h1]; rfl

omit [LinearOrder K] [IsStrictOrderedRing K] in
theorem zipWith_residual_add {α : Type} (f : List K → List K → K) (g : α → List K → K) (A : List α)
    (Zr Or : List (List K)) (hl : Zr.length = Or.length) (hA : A.length = Zr.length) :
    zipWith (· + ·) (zipWith (fun o z => f z o) Or Zr) (zipWith g A Or) =
      zipWith (fun a zo => f zo.1 zo.2 + g a zo.2) A (zip Zr Or) := by
  induction A generalizing Zr Or with
  | nil => simp
  | cons a A ih =>
    cases Zr with
    | nil => simp at hA
    | cons z Zr =>
      cases Or with
      | nil => simp at hl
      | cons o Or => simp [ih Zr Or (by simpa using hl) (by simpa using hA)]

omit [LinearOrder K] [IsStrictOrderedRing K] in
/-- **C29** (`L2Solver.regresidual`): the regularised residuals are the values of the objective
`‖D oᵢ − zᵢ‖² + λ²‖oᵢ‖²`. -/
theorem C29_l2_regresidual (s : L2 K K) (D Z : Mat K) (lam : K) (hd : s.data = some (D, Z))
    (hreg : s.reg = some lam) (hZ : Z.WF) (O : Mat K) (hO : O.WF) (hr : O.nrows = Z.nrows)
    (hc : O.ncols = D.ncols) :
    s.regresidual (.mat O) = .ok (zipWith (objL2 D lam) Z.rows O.rows) := by
  simp only [L2.regresidual, hd, hreg, residual, checkOhat, hr, hc, and_self, if_true, bind,
    Except.bind, pure, Except.pure]
  congr 1
  have hl : O.rows.length = Z.rows.length := by rw [hO.1, hZ.1, hr]
  generalize O.rows = Or at hl ⊢
  generalize Z.rows = Zr at hl ⊢
  induction Or generalizing Zr with
  | nil => obtain rfl := length_eq_zero_iff.mp hl.symm; rfl
  | cons o Or ih =>
    cases Zr with
    | nil => simp at hl
    | cons z Zr => simp [objL2, ih Zr (by simpa using hl)]

omit [LinearOrder K] [IsStrictOrderedRing K] in
/-- **C29** (`L2DecoupledSolver.regresidual`): row `i` uses its own parameter. -/
theorem C29_l2dec_regresidual (s : L2 (List K) K) (D Z : Mat K) (regs : List K)
    (hd : s.data = some (D, Z)) (hreg : s.reg = some regs) (hl : regs.length = Z.nrows) (hZ : Z.WF)
    (O : Mat K) (hO : O.WF) (hr : O.nrows = Z.nrows) (hc : O.ncols = D.ncols) :
    s.regresidualDec (.mat O) =
      .ok (zipWith (fun lam zo => objL2 D lam zo.1 zo.2) regs (zip Z.rows O.rows)) := by
  simp only [L2.regresidualDec, hd, hreg, residual, checkOhat, hr, hc, and_self, if_true, bind,
    Except.bind, pure, Except.pure, hl, ne_eq, not_true, if_false]
  congr 1
  exact zipWith_residual_add (fun z o => sumSq (vsub (matVec D.rows o) z))
    (fun lam o => lam ^ 2 * sumSq o) regs Z.rows O.rows (by rw [hO.1, hZ.1, hr]) (by rw [hl, hZ.1])

/-- **C29** (optimality): the regularised residuals at the solution are, row by row, at most those at
any other matrix. -/
theorem C29_l2_solution_optimal (svd : Mat K → Except Err (Svd K)) (s : L2 K K) (D Z : Mat K)
    (hD : D.WF) (hZ : Z.WF) (hk : Z.ncols = D.nrows) (u : Svd K) (hu : svd D = .ok u)
    (hsvd : IsSVD D u) (lam : K) (hreg : s.reg = some lam) (hne : ¬ (lam = 0 ∧ (0 : K) ∈ u.s)) :
    ∃ s' O, s.fit svd (.mat D) (.mat Z) = (s', .ok ()) ∧ s'.solve = .ok O ∧
      ∀ O' : Mat K, O'.WF → O'.nrows = Z.nrows → O'.ncols = D.ncols →
        ∃ R R', s'.regresidual (.mat O) = .ok R ∧ s'.regresidual (.mat O') = .ok R' ∧
          R.length = Z.nrows ∧ Forall₂ (· ≤ ·) R R' := by
  obtain ⟨s', h1, -, h2⟩ := C22_l2_minimises svd s D Z hD hZ hk u hu hsvd lam hreg
  obtain ⟨O, h3, h4, h5, h6, h7⟩ := h2 hne
  have hs' : s' = ⟨some lam, some (D, Z), some ⟨u.s, Z.mul u.Phi, u.PsiT⟩⟩ := by
    rw [L2.fit_ok svd s D Z hk u hu, hreg] at h1
    exact (Prod.mk.inj h1).1.symm
  refine ⟨s', O, h1, h3, fun O' hw hr hc => ⟨_, _,
    C29_l2_regresidual s' D Z lam (by rw [hs']) (by rw [hs']) hZ O h4 h5 h6,
    C29_l2_regresidual s' D Z lam (by rw [hs']) (by rw [hs']) hZ O' hw hr hc, ?_, ?_⟩⟩
  · rw [length_zipWith, hZ.1, h4.1, h5, min_self]
  · have hl : O'.rows.length = Z.rows.length := by rw [hw.1, hZ.1, hr]
    have hw' : ∀ o ∈ O'.rows, o.length = D.ncols := fun o ho => by rw [hw.2 o ho, hc]
    generalize O'.rows = Or' at hl hw'
    generalize O.rows = Or at h7
    generalize Z.rows = Zr at h7 hl
    induction h7 generalizing Or' with
    | nil => simp
    | cons h _ ih =>
      cases Or' with
      | nil => simp at hl
      | cons o Or' =>
        rw [zipWith_cons_cons, zipWith_cons_cons]
        exact .cons (h.1.2 o (hw' o (by simp)))
          (ih Or' (fun o ho => hw' o (by simp [ho])) (by simpa using hl))

end

/-! ### C28 -/

/-- Operations a user performs on an `L2Solver`. -/
inductive L2Op (K : Type)
  | setReg (reg : Option K)
  | setRegNonScalar
  | fit (D Z : NdArg K)
  | reset

section

variable [Field K] [LinearOrder K]

/-- One operation; exceptions are reported in the second component. -/
def L2.step (svd : Mat K → Except Err (Svd K)) (s : L2 K K) : L2Op K → L2 K K × Except Err Unit
  | .setReg x => s.setReg x
  | .setRegNonScalar => (s, .error .type)
  | .fit D Z => s.fit svd D Z
  | .reset => (s.reset, .ok ())

/-- A history of operations (exceptions are caught and the solver is used further). -/
def L2.run (svd : Mat K → Except Err (Svd K)) (s : L2 K K) (ops : List (L2Op K)) : L2 K K :=
  ops.foldl (fun s op => (s.step svd op).1) s

/-- The data matrices for which the decomposition is computed in a history. -/
def L2Op.svdOk (svd : Mat K → Except Err (Svd K)) : L2Op K → Prop
  | .fit (.mat D) _ => ∃ u, svd D = .ok u
  | _ => True

/-- The precomputed quantities belong to the stored data. -/
def L2.Cons {R : Type} (svd : Mat K → Except Err (Svd K)) (s : L2 R K) : Prop :=
  ∀ D Z, s.data = some (D, Z) →
    Z.ncols = D.nrows ∧ ∃ u, svd D = .ok u ∧ s.pre = some ⟨u.s, Z.mul u.Phi, u.PsiT⟩

omit [Field K] [LinearOrder K] in
theorem templateFit_ok {D Z : NdArg K} {D' Z' : Mat K} (h : templateFit D Z = .ok (D', Z')) :
    D = .mat D' ∧ Z'.ncols = D'.nrows := by
  unfold templateFit at h
  cases D with
  | mat D =>
    cases Z <;> simp only at h
    · split at h
      · cases h
      · rename_i hne; cases h; exact ⟨rfl, not_not.mp hne⟩
    · split at h
      · cases h
      · rename_i hne; cases h; exact ⟨rfl, not_not.mp hne⟩
    · cases h
  | vec _ => cases h
  | other => cases h

omit [LinearOrder K] in
theorem L2.Cons.fit {R : Type} {svd : Mat K → Except Err (Svd K)} {s : L2 R K} (h : s.Cons svd)
    (D Z : NdArg K) (hok : ∀ D', D = .mat D' → ∃ u, svd D' = .ok u) :
    (s.fit svd D Z).1.Cons svd ∧
      ((∃ e, (s.fit svd D Z).2 = .error e) → (s.fit svd D Z).1 = s) := by
  unfold L2.fit
  cases ht : templateFit D Z with
  | error e => exact ⟨h, fun _ => rfl⟩
  | ok x =>
    obtain ⟨D', Z'⟩ := x
    obtain ⟨hD, hk⟩ := templateFit_ok ht
    obtain ⟨u, hu⟩ := hok D' hD
    simp only [hu]
    refine ⟨?_, fun ⟨e, he⟩ => by cases he⟩
    intro D1 Z1 hd
    cases hd
    exact ⟨hk, u, hu, rfl⟩

omit [LinearOrder K] in
theorem L2.Cons.withReg {R : Type} {svd : Mat K → Except Err (Svd K)} {s : L2 R K} (h : s.Cons svd)
    (x : Option R) : ({ s with reg := x } : L2 R K).Cons svd := fun D Z hd => h D Z hd

theorem L2.Cons.step {svd : Mat K → Except Err (Svd K)} {s : L2 K K} (h : s.Cons svd) (op : L2Op K)
    (hok : op.svdOk svd) :
    (s.step svd op).1.Cons svd ∧ ((∃ e, (s.step svd op).2 = .error e) → (s.step svd op).1 = s) := by
  cases op with
  | setReg x =>
    cases x with
    | none => exact ⟨h.withReg none, fun ⟨e, he⟩ => by cases he⟩
    | some x =>
      simp only [L2.step, L2.setReg]
      split
      · exact ⟨h, fun _ => rfl⟩
      · exact ⟨h.withReg _, fun ⟨e, he⟩ => by cases he⟩
  | setRegNonScalar => exact ⟨h, fun _ => rfl⟩
  | fit D Z =>
    refine h.fit D Z ?_
    rintro D' rfl
    exact hok
  | reset => exact ⟨fun D Z hd => (by cases hd), fun ⟨e, he⟩ => by cases he⟩

/-- What `solve()` should give for the parameter, data matrix and left-hand side currently held:
the result of a fresh solver with that parameter fitted to that data. -/
def L2.freshSolve (svd : Mat K → Except Err (Svd K)) (reg : Option K)
    (data : Option (Mat K × Mat K)) : Except Err (Mat K) :=
  match data with
  | none => .error .attribute
  | some (D, Z) => ((⟨reg, none, none⟩ : L2 K K).fit svd (.mat D) (.mat Z)).1.solve

/-- **C28** (`L2Solver`): after any history of assignments to `regularizer`, `fit` and `reset`,
including failing ones, `solve()` answers for the parameter and data the solver currently holds; and a
failing operation changes nothing. Assumes only that the SVD routine itself does not raise. -/
theorem C28_l2_consistent (svd : Mat K → Except Err (Svd K)) (reg : Option K) (ops : List (L2Op K))
    (hok : ∀ op ∈ ops, op.svdOk svd) :
    let s := (⟨reg, none, none⟩ : L2 K K).run svd ops
    s.solve = L2.freshSolve svd s.reg s.data ∧
    ∀ op : L2Op K, op.svdOk svd → (∃ e, (s.step svd op).2 = .error e) → (s.step svd op).1 = s := by
  intro s
  have hcons : s.Cons svd := by
    have : ∀ (t : L2 K K), t.Cons svd → (t.run svd ops).Cons svd := by
      intro t ht
      clear_value s
      induction ops generalizing t with
      | nil => exact ht
      | cons op ops ih =>
        exact ih (fun op h => hok op (by simp [h])) _ (ht.step op (hok op (by simp))).1
    exact this _ (fun D Z hd => by cases hd)
  refine ⟨?_, fun op h => (hcons.step op h).2⟩
  clear_value s
  cases hd : s.data with
  | none => simp [L2.solve, L2.freshSolve, hd]
  | some x =>
    obtain ⟨D, Z⟩ := x
    obtain ⟨hk, u, hu, hp⟩ := hcons D Z hd
    simp only [L2.freshSolve]
    rw [L2.fit_ok svd _ D Z hk u hu]
    simp only [L2.solve, hd, hp]

omit [LinearOrder K] in
/-- **C28** (negation): if the SVD routine raises, the new data are already stored; `solve()` then
still answers for the previous data although `data_matrix` is the new one. -/
theorem C28_l2_failed_svd_leaves_stale_solution [DecidableEq K] (svd : Mat K → Except Err (Svd K)) (lam : K)
    (D Z D' Z' : Mat K) (hk : Z.ncols = D.nrows) (hk' : Z'.ncols = D'.nrows) (u : Svd K)
    (hu : svd D = .ok u) (e : Err) (he : svd D' = .error e) (s : L2 K K) (hs : s.reg = some lam) :
    let s1 := (s.fit svd (.mat D) (.mat Z)).1
    let s2 := (s1.fit svd (.mat D') (.mat Z')).1
    (s1.fit svd (.mat D') (.mat Z')).2 = .error e ∧ s2.data = some (D', Z') ∧ s2.solve = s1.solve := by
  intro s1 s2
  have h1 : s1 = ⟨s.reg, some (D, Z), some ⟨u.s, Z.mul u.Phi, u.PsiT⟩⟩ := by
    simp only [s1, L2.fit_ok svd s D Z hk u hu]
  have h2 : s1.fit svd (.mat D') (.mat Z') = ({ s1 with data := some (D', Z') }, .error e) := by
    simp only [L2.fit, templateFit_mat D' Z' hk', he]
  have h3 : s2 = ⟨s.reg, some (D', Z'), some ⟨u.s, Z.mul u.Phi, u.PsiT⟩⟩ := by
    simp only [s2, h2]; rw [h1]
  refine ⟨by rw [h2], by rw [h3], ?_⟩
  rw [h3, h1]
  simp only [L2.solve, hs]

/-- Operations on an `L2DecoupledSolver`. -/
inductive L2DecOp (K : Type)
  | setReg (reg : Option (NdArg K))
  | fit (D Z : NdArg K)
  | reset

/-- One operation. -/
def L2.stepDec (svd : Mat K → Except Err (Svd K)) (s : L2 (List K) K) :
    L2DecOp K → L2 (List K) K × Except Err Unit
  | .setReg x => s.setRegs x
  | .fit D Z => s.fitDec svd D Z
  | .reset => (s.reset, .ok ())

/-- A history of operations. -/
def L2.runDec (svd : Mat K → Except Err (Svd K)) (s : L2 (List K) K) (ops : List (L2DecOp K)) :
    L2 (List K) K :=
  ops.foldl (fun s op => (s.stepDec svd op).1) s

/-- The decomposition succeeds. -/
def L2DecOp.svdOk (svd : Mat K → Except Err (Svd K)) : L2DecOp K → Prop
  | .fit (.mat D) _ => ∃ u, svd D = .ok u
  | _ => True

omit [LinearOrder K] in
theorem L2.fitDec_fst (svd : Mat K → Except Err (Svd K)) (s : L2 (List K) K) (D Z : NdArg K) :
    (s.fitDec svd D Z).1 = (s.fit svd D Z).1 := by
  unfold L2.fitDec
  generalize s.fit svd D Z = x
  obtain ⟨t, e⟩ := x
  cases e with
  | error e => rfl
  | ok v =>
    cases v
    dsimp only
    split
    · split <;> rfl
    · rfl

theorem L2.Cons.stepDec {svd : Mat K → Except Err (Svd K)} {s : L2 (List K) K} (h : s.Cons svd)
    (op : L2DecOp K) (hok : op.svdOk svd) : (s.stepDec svd op).1.Cons svd := by
  cases op with
  | setReg x =>
    cases x with
    | none => exact h.withReg none
    | some x =>
      cases x with
      | vec xs =>
        simp only [L2.stepDec, L2.setRegs]
        split
        · exact h
        · have h' := h.withReg (some xs)
          cases hd : s.data with
          | none => simpa only [hd] using h'
          | some x => dsimp only; split <;> simpa only [hd] using h'
      | mat _ => exact h
      | other => exact h
  | fit D Z =>
    rw [L2.stepDec, L2.fitDec_fst]
    refine (h.fit D Z ?_).1
    rintro D' rfl
    exact hok
  | reset => exact fun D Z hd => by cases hd

/-- **C28** (`L2DecoupledSolver`): after any history, including failing operations, `solve()` answers
for the parameters and data the solver currently holds, i.e. as a fresh solver given that data and
then those parameters. -/
theorem C28_l2dec_consistent (svd : Mat K → Except Err (Svd K)) (reg : Option (List K))
    (ops : List (L2DecOp K)) (hok : ∀ op ∈ ops, op.svdOk svd) :
    let s := (⟨reg, none, none⟩ : L2 (List K) K).runDec svd ops
    s.solveDec = match s.data with
      | none => .error .attribute
      | some (D, Z) => ((⟨s.reg, none, none⟩ : L2 (List K) K).fit svd (.mat D) (.mat Z)).1.solveDec := by
  intro s
  have hcons : s.Cons svd := by
    have : ∀ (t : L2 (List K) K), t.Cons svd → (t.runDec svd ops).Cons svd := by
      intro t ht
      clear_value s
      induction ops generalizing t with
      | nil => exact ht
      | cons op ops ih =>
        exact ih (fun op h => hok op (by simp [h])) _ (ht.stepDec op (hok op (by simp)))
    exact this _ (fun D Z hd => by cases hd)
  clear_value s
  cases hd : s.data with
  | none => simp [L2.solveDec, hd]
  | some x =>
    obtain ⟨D, Z⟩ := x
    obtain ⟨hk, u, hu, hp⟩ := hcons D Z hd
    dsimp only
    rw [L2.fit_ok svd _ D Z hk u hu]
    simp only [L2.solveDec, hd, hp]

/-- **C28** (negation, `L2DecoupledSolver`): a rejected assignment is not undone. Assigning a single
parameter to a solver fitted with `r ≠ 1` rows raises `DimensionalityError`, but the parameter stays
and `solve()` silently applies it to every row. -/
theorem C28_l2dec_rejected_regularizer_is_used [IsStrictOrderedRing K]
    (svd : Mat K → Except Err (Svd K)) (s : L2 (List K) K)
    (D Z : Mat K) (hk : Z.ncols = D.nrows) (hr : Z.nrows ≠ 1) (u : Svd K) (hu : svd D = .ok u) (lam : K)
    (hl : 0 < lam) :
    let s1 := (s.fit svd (.mat D) (.mat Z)).1
    let s2 := (s1.setRegs (some (.vec [lam]))).1
    (s1.setRegs (some (.vec [lam]))).2 = .error .dimensionality ∧ s2.reg = some [lam] ∧
      s2.solveDec = ((⟨some lam, none, none⟩ : L2 K K).fit svd (.mat D) (.mat Z)).1.solve := by
  intro s1 s2
  have h1 : s1 = ⟨s.reg, some (D, Z), some ⟨u.s, Z.mul u.Phi, u.PsiT⟩⟩ := by
    simp only [s1, L2.fit_ok svd s D Z hk u hu]
  have h2 : s1.setRegs (some (.vec [lam])) = ({ s1 with reg := some [lam] }, .error .dimensionality) := by
    simp [L2.setRegs, h1, not_lt.mpr hl.le, Ne.symm hr]
  refine ⟨by rw [h2], by simp only [s2, h2], ?_⟩
  have h0 : (u.s.any fun x => decide (x ^ 2 + lam ^ 2 = 0)) = false := by
    rw [any_eq_false]
    intro x _
    have := sq_nonneg x
    have := pow_pos hl 2
    simp only [decide_eq_true_eq]
    intro hc; linarith
  have h3 : s2 = ⟨some [lam], some (D, Z), some ⟨u.s, Z.mul u.Phi, u.PsiT⟩⟩ := by
    simp only [s2, h2]; rw [h1]
  rw [h3]
  simp only [L2.fit_ok svd _ D Z hk u hu, L2.solve, L2.solveDec, any_cons, any_nil, h0,
    Bool.or_self, Bool.false_eq_true, if_false, length_cons, length_nil, zero_add]
  rw [if_neg (show ¬ 1 = (Z.mul u.Phi).nrows from fun h => hr h.symm)]

end

/-! ### Concrete witnesses -/

/-- A data matrix, its decomposition and a left-hand side. -/
def exD : Mat ℚ := ⟨3, 2, [[3, 0], [0, 4], [0, 0]]⟩
/-- Its decomposition. -/
def exU : Svd ℚ := ⟨⟨3, 2, [[0, 1], [1, 0], [0, 0]]⟩, [4, 3], ⟨2, 2, [[0, 1], [1, 0]]⟩⟩
/-- A left-hand side with two rows. -/
def exZ : Mat ℚ := ⟨2, 3, [[1, 2, 3], [0, 1, 5]]⟩

theorem exU_isSVD : IsSVD exD exU := by
  have two : ∀ {v : List ℚ}, v.length = 2 → ∃ a b, v = [a, b] := fun h => length_eq_two.mp h
  refine ⟨by decide, by decide, rfl, rfl, rfl, rfl, ?_, ?_, ?_⟩
  · intro x hx
    obtain ⟨a, b, rfl⟩ := two hx
    simp [exD, exU, matVec, dot]
  · intro v w hv hw
    obtain ⟨a, b, rfl⟩ := two hv
    obtain ⟨a', b', rfl⟩ := two hw
    simp [exU, matVec, dot]; ring
  · intro v hv
    obtain ⟨a, b, rfl⟩ := two hv
    simp [exU, matVec, dot, vecMat, vsmul, vadd]

/-- The decomposition routine restricted to the example. -/
def exSvd (D : Mat ℚ) : Except Err (Svd ℚ) := if D = exD then .ok exU else .error .linalg

-- C22: hypotheses hold and the solution is not trivial
example : ((⟨some 1, none, none⟩ : L2 ℚ ℚ).fit exSvd (.mat exD) (.mat exZ)).1.solve =
    .ok ⟨2, 2, [[3 / 10, 8 / 17], [0, 4 / 17]]⟩ := by decide +kernel
example : ∃ s', (⟨some (1 : ℚ), none, none⟩ : L2 ℚ ℚ).fit exSvd (.mat exD) (.mat exZ) = (s', .ok ()) ∧
    ∃ O, s'.solve = .ok O ∧ Forall₂ (L2RowSpec exD 1) exZ.rows O.rows := by
  obtain ⟨s', h1, -, h2⟩ := C22_l2_minimises exSvd ⟨some 1, none, none⟩ exD exZ (by decide) (by decide)
    rfl exU (by simp [exSvd]) exU_isSVD 1 rfl
  obtain ⟨O, h3, -, -, -, h4⟩ := h2 (by simp)
  exact ⟨s', h1, O, h3, h4⟩
-- λ = 0: ordinary least squares
example : ((⟨some 0, none, none⟩ : L2 ℚ ℚ).fit exSvd (.mat exD) (.mat exZ)).1.solve =
    .ok ⟨2, 2, [[1 / 3, 1 / 2], [0, 1 / 4]]⟩ := by decide +kernel
-- C23: two different parameters
example : ((⟨some [1, 0], none, none⟩ : L2 (List ℚ) ℚ).fitDec exSvd (.mat exD) (.mat exZ)).1.solveDec =
    .ok ⟨2, 2, [[3 / 10, 8 / 17], [0, 1 / 4]]⟩ := by decide +kernel
-- C29
example : residual (some (exD, exZ)) (.mat ⟨2, 2, [[1, 0], [0, 1]]⟩) = .ok [17, 34] := by decide +kernel
-- C28: a history with failures
example : ∀ op ∈ ([.setReg (some (-1)), .fit (.mat exD) (.vec [1]), .fit (.mat exD) (.mat exZ),
    .setRegNonScalar, .setReg (some 1)] : List (L2Op ℚ)), op.svdOk exSvd := by
  simp [L2Op.svdOk, exSvd]
example : ((⟨none, none, none⟩ : L2 ℚ ℚ).run exSvd [.setReg (some (-1)), .fit (.mat exD) (.vec [1]),
    .fit (.mat exD) (.mat exZ), .setRegNonScalar, .setReg (some 1)]).solve =
    .ok ⟨2, 2, [[3 / 10, 8 / 17], [0, 4 / 17]]⟩ := by decide +kernel

end Opinf
