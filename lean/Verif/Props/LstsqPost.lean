import Verif.Props.LstsqTik

/-!
# C30: posterior distributions of the regularized solvers
-/

namespace Opinf

open List

variable {K : Type}

/-! ### Bilinear forms of matrices -/

theorem dot_matVec_smul [CommSemiring K] (c : K) (A : Mat K) (x y : List K) :
    dot y (matVec (A.smul c).rows x) = c * dot y (matVec A.rows x) := by
  have : matVec (A.smul c).rows x = vsmul c (matVec A.rows x) := by
    simp only [matVec, Mat.smul, vsmul, map_map]
    exact map_congr_left fun a _ => dot_vsmul_left c a x
  rw [this, dot_vsmul_right]

theorem dot_matVec_gram [CommRing K] (D : Mat K) (hD : D.WF) (x y : List K) :
    dot y (matVec (D.t.mul D).rows x) = dot (matVec D.rows y) (matVec D.rows x) := by
  show dot y (matVec (matMul D.ncols (transpose D.ncols D.rows) D.rows) x) = _
  rw [matVec_matMul _ _ _ _ hD.2, ← dot_matVec_left _ _ _ _ hD.2]

theorem dot_matVec_symmetrize [Field K] (A : Mat K) (hA : A.WF) (hsq : A.nrows = A.ncols) (x y : List K) :
    dot y (matVec (symmetrize A).rows x) =
      (dot x (matVec A.rows y) + dot y (matVec A.rows x)) / 2 := by
  have e1 : matVec (symmetrize A).rows x =
      vsmul (1 / 2) (matVec (zipWith vadd A.t.rows A.rows) x) := by
    simp only [matVec, symmetrize, vsmul, map_map]
    apply map_congr_left
    intro a _
    rw [Function.comp_apply, Function.comp_apply, ← dot_vsmul_left]
    congr 1
    simp only [vsmul]
    exact map_congr_left fun b _ => by ring
  have hAt := A.t_wf hA
  have e2 := matVec_zipWith_vadd A.t.rows A.rows x A.ncols (fun a ha => (hAt.2 a ha).trans hsq) hA.2
  have e3 : dot y (matVec A.t.rows x) = dot x (matVec A.rows y) := by
    show dot y (matVec (transpose A.ncols A.rows) x) = _
    rw [← dot_matVec_left _ _ _ _ hA.2, dot_comm']
  rw [e1, e2, dot_vsmul_right, dot_vadd_right _ _ _ (by
    simp only [length_matVec]; rw [hAt.1, hA.1]; exact hsq.symm), e3]
  ring

theorem Mat.gram_wf [Semiring K] (D : Mat K) (hD : D.WF) : (D.t.mul D).WF :=
  ⟨by simp [Mat.mul, matMul, Mat.t, transpose], matMul_rows _ _ _ hD.2⟩

theorem symmetrize_wf [Field K] (A : Mat K) (hA : A.WF) (hsq : A.nrows = A.ncols) :
    (symmetrize A).WF := by
  have ht := A.t_wf hA
  have h1 : A.t.rows.length = A.ncols := ht.1
  refine ⟨by simp [symmetrize, h1, hA.1, hsq], ?_⟩
  intro row hrow
  simp only [symmetrize, mem_map] at hrow
  obtain ⟨a, ha, rfl⟩ := hrow
  rw [mem_iff_getElem] at ha
  obtain ⟨i, hi, rfl⟩ := ha
  simp only [length_zipWith] at hi
  have e1 := ht.2 _ (getElem_mem (show i < A.t.rows.length by omega))
  have e2 := hA.2 _ (getElem_mem (show i < A.rows.length by omega))
  have e3 : A.t.ncols = A.nrows := rfl
  simp only [length_map, getElem_zipWith, length_vadd, e1, e2, e3, hsq, min_self]
  rfl

/-- `symmetrize(DᵀD)` has the same form as `DᵀD`. -/
theorem dot_symm_gram [Field K] [CharZero K] (D : Mat K) (hD : D.WF) (x y : List K) :
    dot y (matVec (symmetrize (D.t.mul D)).rows x) = dot (matVec D.rows y) (matVec D.rows x) := by
  rw [dot_matVec_symmetrize _ (D.gram_wf hD) rfl x y, dot_matVec_gram D hD,
    dot_matVec_gram D hD, dot_comm' (matVec D.rows x)]
  ring

theorem addRows_wf [Add K] (A B : Mat K) (hA : A.WF) (hB : B.WF) (hr : A.nrows = B.nrows)
    (hc : A.ncols = B.ncols) : (⟨A.nrows, A.ncols, zipWith vadd A.rows B.rows⟩ : Mat K).WF := by
  refine ⟨by simp [hA.1, hB.1, hr], ?_⟩
  intro row hrow
  rw [mem_iff_getElem] at hrow
  obtain ⟨i, hi, rfl⟩ := hrow
  simp only [length_zipWith] at hi
  have e1 := hA.2 _ (getElem_mem (show i < A.rows.length by omega))
  have e2 := hB.2 _ (getElem_mem (show i < B.rows.length by omega))
  simp [e1, e2, hc]

theorem Mat.smul_wf [Mul K] (c : K) (A : Mat K) (hA : A.WF) : (A.smul c).WF := by
  refine ⟨by simp [Mat.smul, hA.1], ?_⟩
  intro row hrow
  simp only [Mat.smul, mem_map] at hrow
  obtain ⟨a, ha, rfl⟩ := hrow
  rw [length_vsmul]
  exact hA.2 a ha

theorem Mat.eye_wf [Zero K] [One K] (d : Nat) : (Mat.eye K d).WF := by
  refine ⟨by simp [Mat.eye, Opinf.eye], ?_⟩
  intro row hrow
  simp only [Mat.eye, Opinf.eye, mem_map] at hrow
  obtain ⟨a, _, rfl⟩ := hrow
  simp [Mat.eye]

theorem pow_pos_of_ne [Field K] [LinearOrder K] [IsStrictOrderedRing K] (x : K) (h : x ≠ 0) :
    0 < x ^ 2 := by positivity

/-! ### The precision matrices -/

/-- `P` is the precision matrix `(k / res) · form` on vectors of length `d`: symmetric, and positive
definite as soon as the form is. -/
structure PrecSpec [Field K] [LinearOrder K] (d k : Nat) (form : List K → List K → K) (res : K)
    (P : Mat K) : Prop where
  wf : P.WF
  nrows : P.nrows = d
  ncols : P.ncols = d
  bilin : ∀ x y : List K, x.length = d → y.length = d →
    dot y (matVec P.rows x) = (k : K) / res * form y x
  symm : ∀ x y : List K, x.length = d → y.length = d →
    dot y (matVec P.rows x) = dot x (matVec P.rows y)
  pos : (∀ x : List K, x.length = d → x ≠ replicate d 0 → 0 < form x x) →
    ∀ x : List K, x.length = d → x ≠ replicate d 0 → 0 < dot x (matVec P.rows x)

/-- `yᵀ (DᵀD + ΓᵀΓ) x`. -/
def tikForm [Semiring K] (D G : Mat K) (y x : List K) : K :=
  dot (matVec D.rows y) (matVec D.rows x) + dot (matVec G.rows y) (matVec G.rows x)

/-- `yᵀ (DᵀD + λ²I) x`. -/
def l2Form [Semiring K] (D : Mat K) (lam : K) (y x : List K) : K :=
  dot (matVec D.rows y) (matVec D.rows x) + lam ^ 2 * dot y x

section

variable [Field K] [LinearOrder K] [IsStrictOrderedRing K]

theorem precSpec_of_form (d k : Nat) (form : List K → List K → K) (hsym : ∀ x y, form y x = form x y)
    (A : Mat K) (hA : A.WF) (hr : A.nrows = d) (hc : A.ncols = d)
    (hf : ∀ x y : List K, x.length = d → y.length = d → dot y (matVec A.rows x) = form y x)
    (res : K) (hres : 0 < res) (hk : 0 < k) : PrecSpec d k form res (A.smul (res / (k : K))⁻¹) := by
  have hk' : (0 : K) < k := by exact_mod_cast hk
  have key : ∀ x y : List K, x.length = d → y.length = d →
      dot y (matVec (A.smul (res / (k : K))⁻¹).rows x) = (k : K) / res * form y x := by
    intro x y hx hy
    rw [dot_matVec_smul, hf x y hx hy, inv_div]
  refine ⟨A.smul_wf _ hA, hr, hc, key, ?_, ?_⟩
  · intro x y hx hy
    rw [key x y hx hy, key y x hy hx, hsym]
  · intro hp x hx hx0
    rw [key x x hx hx]
    exact mul_pos (div_pos hk' hres) (hp x hx hx0)

omit [IsStrictOrderedRing K] in
theorem checkSigmas_spec (eps : K) (k : Nat) (res : List K) (hk : 0 < k) :
    ((∃ x ∈ res, x < eps) → checkSigmas eps k res = .error .runtime) ∧
    ((∀ x ∈ res, eps ≤ x) → checkSigmas eps k res = .ok (res.map (· / (k : K)))) := by
  constructor
  · rintro ⟨x, hx, h⟩
    rw [checkSigmas, if_pos]
    rw [any_eq_true]; exact ⟨x, hx, by simpa using h⟩
  · intro h
    rw [checkSigmas, if_neg, if_neg (by omega)]
    rw [Bool.not_eq_true, any_eq_false]
    intro x hx
    simpa using h x hx

theorem l2_prec (D : Mat K) (hD : D.WF) (lam x : K) (hx : 0 < x) (hk : 0 < D.nrows) :
    PrecSpec D.ncols D.nrows (l2Form D lam) x
      ((⟨D.ncols, D.ncols, zipWith vadd (symmetrize (D.t.mul D)).rows
        ((Mat.eye K D.ncols).smul (lam ^ 2)).rows⟩ : Mat K).smul (x / (D.nrows : K))⁻¹) := by
  have w1 := symmetrize_wf (D.t.mul D) (D.gram_wf hD) rfl
  have w2 := Mat.smul_wf (lam ^ 2) _ (Mat.eye_wf (K := K) D.ncols)
  refine precSpec_of_form D.ncols D.nrows (l2Form D lam) ?_ _ (addRows_wf _ _ w1 w2 rfl rfl)
    rfl rfl ?_ x hx hk
  · intro a b
    simp only [l2Form, dot_comm' (matVec D.rows a), dot_comm' a]
  · intro a b ha hb
    rw [matVec_zipWith_vadd _ _ a D.ncols w1.2 w2.2,
      dot_vadd_right _ _ _ (by simp only [length_matVec]; rw [w1.1, w2.1]; rfl),
      dot_symm_gram D hD a b, dot_matVec_smul, Mat.eye, matVec_eye _ _ ha]
    rfl

theorem tik_prec (D G : Mat K) (hD : D.WF) (hG : G.WF) (hGc : G.ncols = D.ncols) (x : K) (hx : 0 < x)
    (hk : 0 < D.nrows) :
    PrecSpec D.ncols D.nrows (tikForm D G) x
      ((⟨D.ncols, D.ncols, zipWith vadd (symmetrize (D.t.mul D)).rows
        (symmetrize (G.t.mul G)).rows⟩ : Mat K).smul (x / (D.nrows : K))⁻¹) := by
  have w1 := symmetrize_wf (D.t.mul D) (D.gram_wf hD) rfl
  have w2 := symmetrize_wf (G.t.mul G) (G.gram_wf hG) rfl
  refine precSpec_of_form D.ncols D.nrows (tikForm D G) ?_ _ (addRows_wf _ _ w1 w2 hGc.symm hGc.symm)
    rfl rfl ?_ x hx hk
  · intro a b
    simp only [tikForm, dot_comm' (matVec D.rows a), dot_comm' (matVec G.rows a)]
  · intro a b ha hb
    rw [matVec_zipWith_vadd _ _ a D.ncols w1.2 (fun c hc => (w2.2 c hc).trans hGc),
      dot_vadd_right _ _ _ (by simp only [length_matVec]; rw [w1.1, w2.1]; exact hGc.symm),
      dot_symm_gram D hD a b, dot_symm_gram G hG a b]
    rfl

omit [LinearOrder K] [IsStrictOrderedRing K] in
theorem tik_addB (D G : Mat K) (hGc : G.ncols = D.ncols) :
    (symmetrize (D.t.mul D)).addB (symmetrize (G.t.mul G)) = .ok ⟨D.ncols, D.ncols,
      zipWith vadd (symmetrize (D.t.mul D)).rows (symmetrize (G.t.mul G)).rows⟩ := by
  rw [Mat.addB, if_pos]
  · rfl
  · exact ⟨hGc.symm, hGc.symm⟩

omit [LinearOrder K] [IsStrictOrderedRing K] in
theorem tikDec_mapM (D : Mat K) (Gs : List (Mat K)) (sig : List K)
    (hG : ∀ G ∈ Gs, G.ncols = D.ncols) :
    (zip Gs sig).mapM (fun p : Mat K × K => do
      let inv ← (symmetrize (D.t.mul D)).addB (symmetrize (p.1.t.mul p.1))
      return inv.smul p.2⁻¹) = Except.ok (ε := Err) (zipWith (fun G x =>
        (⟨D.ncols, D.ncols, zipWith vadd (symmetrize (D.t.mul D)).rows
          (symmetrize (G.t.mul G)).rows⟩ : Mat K).smul x⁻¹) Gs sig) := by
  induction Gs generalizing sig with
  | nil => rfl
  | cons G Gs ih =>
    cases sig with
    | nil => rfl
    | cons x sig =>
      have e := ih sig (fun G hg => hG G (by simp [hg]))
      rw [zip_cons_cons, mapM_cons, e, tik_addB D G (hG G (by simp))]
      rfl

/-- **C30** (`L2Solver`): the means are the rows of `solve()`; if a regularized residual is below the
threshold the call raises `RuntimeError`, otherwise the `i`-th precision is
`(k / regresidual_i) (DᵀD + λ²I)`, symmetric, and positive definite whenever `DᵀD + λ²I` is. -/
theorem C30_l2_posterior (eps : K) (heps : 0 < eps) (s : L2 K K) (D Z : Mat K) (hD : D.WF)
    (hk : 0 < D.nrows) (lam : K) (hdata : s.data = some (D, Z)) (hreg : s.reg = some lam)
    (O : Mat K) (hO : s.solve = .ok O) (res : List K) (hres : s.regresidual (.mat O) = .ok res) :
    ((∃ x ∈ res, x < eps) → s.posterior eps = .error .runtime) ∧
    ((∀ x ∈ res, eps ≤ x) → ∃ Ps, s.posterior eps = .ok (O, Ps) ∧
      Forall₂ (PrecSpec D.ncols D.nrows (l2Form D lam)) res Ps) := by
  obtain ⟨c1, c2⟩ := checkSigmas_spec eps D.nrows res hk
  constructor
  · intro h
    simp only [L2.posterior, hO, hdata, hreg, hres, c1 h, bind, Except.bind]
  · intro h
    refine ⟨_, by simp only [L2.posterior, hO, hdata, hreg, hres, c2 h, bind, Except.bind]; rfl, ?_⟩
    rw [map_map, forall₂_map_right_iff]
    apply forall₂_same.mpr
    intro x hx
    exact l2_prec D hD lam x (heps.trans_le (h x hx)) hk

/-- **C30** (`L2DecoupledSolver`): as for `L2Solver`, with the `i`-th parameter in the `i`-th
precision. -/
theorem C30_l2dec_posterior (eps : K) (heps : 0 < eps) (s : L2 (List K) K) (D Z : Mat K) (hD : D.WF)
    (hk : 0 < D.nrows) (regs : List K) (hdata : s.data = some (D, Z)) (hreg : s.reg = some regs)
    (O : Mat K) (hO : s.solveDec = .ok O) (res : List K)
    (hres : s.regresidualDec (.mat O) = .ok res) (hlen : regs.length = res.length) :
    ((∃ x ∈ res, x < eps) → s.posteriorDec eps = .error .runtime) ∧
    ((∀ x ∈ res, eps ≤ x) → ∃ Ps, s.posteriorDec eps = .ok (O, Ps) ∧ Ps.length = res.length ∧
      ∀ (i : Nat) lam x P, regs[i]? = some lam → res[i]? = some x → Ps[i]? = some P →
        PrecSpec D.ncols D.nrows (l2Form D lam) x P) := by
  obtain ⟨c1, c2⟩ := checkSigmas_spec eps D.nrows res hk
  constructor
  · intro h
    simp only [L2.posteriorDec, hO, hdata, hreg, hres, c1 h, bind, Except.bind]
  · intro h
    refine ⟨_, by simp only [L2.posteriorDec, hO, hdata, hreg, hres, c2 h, bind, Except.bind]; rfl,
      by simp [hlen], ?_⟩
    intro i lam x P hlam hx hP
    rw [getElem?_zipWith, hlam, getElem?_map, hx] at hP
    simp only [Option.map_some, Option.some.injEq] at hP
    subst hP
    exact l2_prec D hD lam x (heps.trans_le (h x (mem_of_getElem? hx))) hk

/-- **C30** (`TikhonovSolver`): the `i`-th precision is `(k / regresidual_i) (DᵀD + ΓᵀΓ)`. -/
theorem C30_tikhonov_posterior (eps : K) (heps : 0 < eps)
    (lstsq posSolve : Mat K → Mat K → Except Err (Mat K)) (s : Tik (Mat K) K) (D Z G : Mat K)
    (hD : D.WF) (hG : G.WF) (hGc : G.ncols = D.ncols)
    (hk : 0 < D.nrows) (hdata : s.data = some (D, Z)) (hreg : s.reg = some G)
    (O : Mat K) (hO : s.solve lstsq posSolve = .ok O) (res : List K)
    (hres : s.regresidual (.mat O) = .ok res) :
    ((∃ x ∈ res, x < eps) → s.posterior eps lstsq posSolve = .error .runtime) ∧
    ((∀ x ∈ res, eps ≤ x) → ∃ Ps, s.posterior eps lstsq posSolve = .ok (O, Ps) ∧
      Forall₂ (PrecSpec D.ncols D.nrows (tikForm D G)) res Ps) := by
  obtain ⟨c1, c2⟩ := checkSigmas_spec eps D.nrows res hk
  constructor
  · intro h
    simp only [Tik.posterior, hO, hdata, hreg, hres, c1 h, bind, Except.bind]
  · intro h
    refine ⟨_, by simp only [Tik.posterior, hO, hdata, hreg, hres, c2 h, bind, Except.bind,
      tik_addB D G hGc]; rfl, ?_⟩
    rw [map_map, forall₂_map_right_iff]
    apply forall₂_same.mpr
    intro x hx
    exact tik_prec D G hD hG hGc x (heps.trans_le (h x hx)) hk

/-- **C30** (`TikhonovDecoupledSolver`): as for `TikhonovSolver`, with the `i`-th regularization
matrix in the `i`-th precision. -/
theorem C30_tikdec_posterior (eps junk : K) (heps : 0 < eps)
    (lstsq posSolve : Mat K → Mat K → Except Err (Mat K)) (s : Tik (List (Mat K)) K) (D Z : Mat K)
    (Gs : List (Mat K)) (hD : D.WF) (hG : ∀ G ∈ Gs, G.WF ∧ G.ncols = D.ncols)
    (hk : 0 < D.nrows) (hdata : s.data = some (D, Z)) (hreg : s.reg = some Gs)
    (O : Mat K) (hO : s.solveDec junk lstsq posSolve = .ok O) (res : List K)
    (hres : s.regresidualDec (.mat O) = .ok res) (hlen : Gs.length = res.length) :
    ((∃ x ∈ res, x < eps) → s.posteriorDec eps junk lstsq posSolve = .error .runtime) ∧
    ((∀ x ∈ res, eps ≤ x) → ∃ Ps, s.posteriorDec eps junk lstsq posSolve = .ok (O, Ps) ∧
      Ps.length = res.length ∧
      ∀ (i : Nat) G x P, Gs[i]? = some G → res[i]? = some x → Ps[i]? = some P →
        PrecSpec D.ncols D.nrows (tikForm D G) x P) := by
  obtain ⟨c1, c2⟩ := checkSigmas_spec eps D.nrows res hk
  constructor
  · intro h
    simp only [Tik.posteriorDec, hO, hdata, hreg, hres, c1 h, bind, Except.bind]
  · intro h
    have hm := tikDec_mapM D Gs (res.map (· / (D.nrows : K))) (fun G hg => (hG G hg).2)
    refine ⟨zipWith (fun G x => (⟨D.ncols, D.ncols, zipWith vadd (symmetrize (D.t.mul D)).rows
        (symmetrize (G.t.mul G)).rows⟩ : Mat K).smul x⁻¹) Gs (res.map (· / (D.nrows : K))), ?_,
      by simp [hlen], ?_⟩
    · simp only [bind, Except.bind] at hm
      simp only [Tik.posteriorDec, hO, hdata, hreg, hres, c2 h, bind, Except.bind, hm]
      rfl
    · intro i G x P hg hx hP
      rw [getElem?_zipWith, hg, getElem?_map, hx] at hP
      simp only [Option.map_some, Option.some.injEq] at hP
      subst hP
      have hGi := hG G (mem_of_getElem? hg)
      exact tik_prec D G hD hGi.1 hGi.2 x (heps.trans_le (h x (mem_of_getElem? hx))) hk

/-! ### Positive definiteness -/

/-- **C30** (positive definiteness): `DᵀD + λ²I` is positive definite when `λ ≠ 0` or the columns of
`D` are independent, and `DᵀD + ΓᵀΓ` when `[D; Γ]` has independent columns. -/
theorem C30_forms_positive (D G : Mat K) (lam : K) (x : List K) (hx : x.length = D.ncols)
    (h0 : x ≠ replicate D.ncols 0) :
    (lam ≠ 0 ∨ matVec D.rows x ≠ replicate D.rows.length 0 → 0 < l2Form D lam x x) ∧
    (matVec D.rows x ≠ replicate D.rows.length 0 ∨ matVec G.rows x ≠ replicate G.rows.length 0 →
      0 < tikForm D G x x) := by
  have pos : ∀ v : List K, v ≠ replicate v.length 0 → 0 < dot v v := fun v hv =>
    lt_of_le_of_ne (dot_self_nonneg v) fun h => hv (dot_self_eq_zero v h.symm)
  have p1 := dot_self_nonneg (matVec D.rows x)
  have p2 := dot_self_nonneg (matVec G.rows x)
  have p3 := dot_self_nonneg x
  constructor
  · rintro (h | h)
    · have := mul_pos (pow_pos_of_ne lam h) (pos x (by rwa [hx]))
      simp only [l2Form]; linarith
    · have := pos (matVec D.rows x) (by rwa [length_matVec])
      have := mul_nonneg (sq_nonneg lam) p3
      simp only [l2Form]; linarith
  · rintro (h | h)
    · have := pos (matVec D.rows x) (by rwa [length_matVec])
      simp only [tikForm]; linarith
    · have := pos (matVec G.rows x) (by rwa [length_matVec])
      simp only [tikForm]; linarith

end

/-! ### Witnesses -/

/-- Non-vacuity: the hypotheses of `C30_l2_posterior` hold for a fitted solver, and its second
alternative is the one that applies. -/
example : let s := ((⟨some 1, none, none⟩ : L2 Rat Rat).fit exSvd (.mat exD) (.mat exZ)).1
    ∃ O res Ps, s.solve = .ok O ∧ s.regresidual (.mat O) = .ok res ∧ (∀ x ∈ res, (1/1000 : Rat) ≤ x) ∧
      s.posterior (1/1000) = .ok (O, Ps) := by
  intro s
  have h : (match s.solve with
    | .ok O => match s.regresidual (.mat O) with
      | .ok res => match s.posterior (1/1000) with
        | .ok (O', _) => decide (O = O' ∧ ∀ x ∈ res, (1/1000 : Rat) ≤ x)
        | .error _ => false
      | .error _ => false
    | .error _ => false) = true := by decide +kernel
  split at h
  · split at h
    · split at h
      · rename_i O h1 _ res h2 _ O' Ps h3
        simp only [decide_eq_true_eq] at h
        exact ⟨O, res, Ps, h1, h2, h.2, by rw [h3, h.1]⟩
      · cases h
    · cases h
  · cases h

end Opinf
