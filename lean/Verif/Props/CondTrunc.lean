import Verif.Props.Cond

/-!
# C98, continued: truncated SVD and total least squares
-/

namespace Opinf

open List

variable {K : Type}

section

variable [Field K]

/-- Vectors of length `n` with the same inner products are equal. -/
theorem ext_dot {n : Nat} {a b : List K} (ha : a.length = n) (hb : b.length = n)
    (h : ∀ x : List K, x.length = n → dot a x = dot b x) : a = b := by
  apply ext_getElem (ha.trans hb.symm)
  intro j h1 h2
  have e := h ((range n).map fun i => if j = i then (1 : K) else 0) (by simp)
  rw [dot_unit n j a ha (ha ▸ h1), dot_unit n j b hb (hb ▸ h2), getD_eq_getElem _ _ h1,
    getD_eq_getElem _ _ h2] at e
  exact e

/-- A row of weights times `D`, through the decomposition. -/
theorem svd_rows {D : Mat K} {u : Svd K} (h : IsSVD D u) (hD : D.WF) (z : List K) :
    vecMat D.ncols z D.rows =
      vecMat D.ncols (zipWith (· * ·) (vecMat u.Phi.ncols z u.Phi.rows) u.s) u.PsiT.rows := by
  have hr : ∀ r ∈ u.PsiT.rows, r.length = D.ncols := fun r hr => by rw [h.psiWF.2 r hr, h.psiCols]
  refine ext_dot (length_vecMat _ _ _ hD.2) (length_vecMat _ _ _ hr) fun x hx => ?_
  rw [dot_vecMat _ _ _ _ hD.2, dot_vecMat _ _ _ _ hr, h.recon x hx, ← dot_vecMat _ _ _ _ h.phiWF.2,
    dot_mul_assoc]

/-- The transpose of `Φ` inverts `Φ`. -/
theorem svd_phi_inv {D : Mat K} {u : Svd K} (h : IsSVD D u) (w : List K) (hw : w.length = u.s.length) :
    vecMat u.Phi.ncols (matVec u.Phi.rows w) u.Phi.rows = w := by
  refine ext_dot ((length_vecMat _ _ _ h.phiWF.2).trans h.phiCols) hw fun x hx => ?_
  rw [dot_vecMat _ _ _ _ h.phiWF.2, h.orthPhi w x hw hx]

theorem zipWith_div_mul (y s : List K) (h : y.length = s.length) (hne : ∀ x ∈ s, x ≠ 0) :
    zipWith (· * ·) (zipWith (fun y s => y / s) y s) s = y := by
  induction y generalizing s with
  | nil => simp
  | cons a y ih =>
    cases s with
    | nil => cases h
    | cons b s =>
      simp only [zipWith_cons_cons]
      rw [ih s (by simpa using h) fun x hx => hne x (mem_cons_of_mem _ hx), div_mul_cancel₀ _ (hne b mem_cons_self)]

/-- With nonzero singular values, the row space is spanned by the right singular vectors. -/
theorem rowSpace_iff {D : Mat K} {u : Svd K} (h : IsSVD D u) (hD : D.WF) (hne : ∀ x ∈ u.s, x ≠ 0) (x : List K) :
    InRowSpace D x ↔ ∃ y : List K, y.length = u.s.length ∧ x = vecMat D.ncols y u.PsiT.rows := by
  constructor
  · rintro ⟨z, -, rfl⟩
    refine ⟨_, ?_, svd_rows h hD z⟩
    rw [length_zipWith, length_vecMat _ _ _ h.phiWF.2, h.phiCols, min_self]
  · rintro ⟨y, hy, rfl⟩
    have hl : (zipWith (fun y s => y / s) y u.s).length = u.s.length := by rw [length_zipWith, hy, min_self]
    refine ⟨matVec u.Phi.rows (zipWith (fun y s => y / s) y u.s), ?_, ?_⟩
    · rw [length_matVec, h.phiWF.1, h.phiRows]
    · rw [svd_rows h hD, svd_phi_inv h _ hl]
      rw [zipWith_div_mul y u.s hy hne]

variable [LinearOrder K] [IsStrictOrderedRing K]

/-- The extremes of `‖D x‖` over the row space are the extreme singular values, if these do not vanish. -/
theorem rowSpace_extremes {D : Mat K} {u : Svd K} (h : IsSVD D u) (hD : D.WF) (hne : ∀ x ∈ u.s, x ≠ 0) (M m : K)
    (hM : M ∈ u.s.map (· ^ 2)) (hm : m ∈ u.s.map (· ^ 2)) (hMu : ∀ x ∈ u.s.map (· ^ 2), x ≤ M)
    (hml : ∀ x ∈ u.s.map (· ^ 2), m ≤ x) : Extremes (InRowSpace D) (gain D.rows) M m := by
  have key : ∀ y : List K, y.length = u.s.length →
      gain D.rows (vecMat D.ncols y u.PsiT.rows) = wsq (u.s.map (· ^ 2)) y ∧
      sumSq (vecMat D.ncols y u.PsiT.rows) = sumSq y := by
    intro y hy
    obtain ⟨c1, c2, c3⟩ := svd_comb h y hy
    exact ⟨by rw [gain, svd_norm h _ c1, c2], c3⟩
  have att : ∀ a ∈ u.s.map (· ^ 2), ∃ x, InRowSpace D x ∧ sumSq x ≠ 0 ∧ gain D.rows x = a * sumSq x := by
    intro a ha
    obtain ⟨y, hy, h1, h2⟩ := wsq_pick _ a ha
    rw [length_map] at hy
    obtain ⟨k1, k2⟩ := key y hy
    refine ⟨_, (rowSpace_iff h hD hne _).2 ⟨y, hy, rfl⟩, ?_, ?_⟩
    · rw [k2, h2]; exact one_ne_zero
    · rw [k1, k2, h1, h2, mul_one]
  refine ⟨fun x hx => ?_, fun x hx => ?_, att M hM, att m hm⟩
  · obtain ⟨y, hy, rfl⟩ := (rowSpace_iff h hD hne x).1 hx
    obtain ⟨k1, k2⟩ := key y hy
    rw [k1, k2]
    exact wsq_le _ _ _ (by rw [length_map, hy]) hMu
  · obtain ⟨y, hy, rfl⟩ := (rowSpace_iff h hD hne x).1 hx
    obtain ⟨k1, k2⟩ := key y hy
    rw [k1, k2]
    exact le_wsq _ _ _ (by rw [length_map, hy]) hml

/-! ### `TruncatedSVDSolver.tcond()` -/

omit [LinearOrder K] [IsStrictOrderedRing K] in
theorem pyGet_ok (x : List K) (i : Nat) (h : i < x.length) : pyGet x (i : Int) = .ok x[i] := by
  rw [pyGet]
  rw [if_neg (by omega), if_neg (by omega), Int.toNat_natCast, getElem?_eq_getElem h]

/-- **C98** (`tcond()`): for `1 ≤ num_svdmodes ≤ max_modes` with a nonzero last retained singular value, the reported
value is the condition number of the truncated matrix on its row space (the vectors orthogonal to its null space). -/
theorem C98_tcond (svd : Mat K → Except Err (Svd K)) (hsvd : ThinSvd svd) (s s' : Tsvd K) (D Z : Mat K)
    (hD : D.WF) (hk : Z.ncols = D.nrows) (hf : s.fit svd (.mat D) (.mat Z) = (s', .ok ())) (u : Svd K)
    (hu : svd D = .ok u) (n : Nat) (h1 : 1 ≤ n) (hn : n ≤ u.s.length) (hlast : u.s[n - 1]'(by omega) ≠ 0) :
    ∃ κ, ({ s' with nmodes := some (n : Int) } : Tsvd K).tcond = .ok (.num κ) ∧
      CondVal (InRowSpace (truncMat u n)) (truncMat u n).rows (.num κ) := by
  obtain ⟨n', hfit, -⟩ := Tsvd.fit_ok svd s D Z hk u hu
  rw [hfit] at hf
  obtain rfl := (congrArg Prod.fst hf).symm
  obtain ⟨hS, -, hsort, hnn⟩ := hsvd D u hD hu
  have hT := truncSvd_isSVD D u hS n hn
  have hTW := truncMat_wf D u hS n
  have hsorted : ∀ i j (hi : i < u.s.length) (hj : j < u.s.length), i ≤ j → u.s[j] ≤ u.s[i] := by
    intro i j hi hj hij
    rcases eq_or_lt_of_le hij with rfl | hlt
    · exact le_rfl
    · exact (pairwise_iff_getElem.1 hsort) i j hi hj hlt
  have hpos : 0 < u.s[n - 1]'(by omega) :=
    lt_of_le_of_ne (hnn _ (getElem_mem _)) (Ne.symm hlast)
  have hts : (truncSvd u n).s = u.s.take n := rfl
  have hmem : ∀ x ∈ u.s.take n, ∃ i, ∃ hi : i < u.s.length, i ≤ n - 1 ∧ u.s[i] = x := by
    intro x hx
    obtain ⟨i, hi, rfl⟩ := mem_iff_getElem.1 hx
    rw [length_take] at hi
    exact ⟨i, by omega, by omega, by rw [getElem_take]⟩
  have h0m : u.s[0]'(by omega) ∈ u.s.take n :=
    mem_iff_getElem.2 ⟨0, by rw [length_take]; omega, by rw [getElem_take]⟩
  have hlm : u.s[n - 1]'(by omega) ∈ u.s.take n :=
    mem_iff_getElem.2 ⟨n - 1, by rw [length_take]; omega, by rw [getElem_take]⟩
  have hE := rowSpace_extremes hT hTW
    (by
      intro x hx
      obtain ⟨i, hi, hin, rfl⟩ := hmem x hx
      exact (hpos.trans_le (hsorted i (n - 1) hi (by omega) hin)).ne')
    ((u.s[0]'(by omega)) ^ 2) ((u.s[n - 1]'(by omega)) ^ 2) (mem_map.2 ⟨_, h0m, rfl⟩) (mem_map.2 ⟨_, hlm, rfl⟩)
    (by
      intro y hy
      obtain ⟨x, hx, rfl⟩ := mem_map.1 hy
      obtain ⟨i, hi, hin, rfl⟩ := hmem x hx
      exact pow_le_pow_left₀ (hnn _ (getElem_mem _)) (hsorted 0 i (by omega) hi (Nat.zero_le _)) 2)
    (by
      intro y hy
      obtain ⟨x, hx, rfl⟩ := mem_map.1 hy
      obtain ⟨i, hi, hin, rfl⟩ := hmem x hx
      exact pow_le_pow_left₀ hpos.le (hsorted i (n - 1) hi (by omega) hin) 2)
  have hC := condVal_num (hnn _ (getElem_mem (l := u.s) (n := 0) (by omega))) hpos.le hE
  refine ⟨u.s[0]'(by omega) / u.s[n - 1]'(by omega), ?_, ?_⟩
  · have e1 := pyGet_ok u.s 0 (by omega)
    have e2 := pyGet_ok u.s (n - 1) (by omega)
    rw [Nat.cast_sub h1] at e2
    simp only [Tsvd.tcond]
    simp only [Nat.cast_zero, Nat.cast_one] at e1 e2
    rw [e1, e2]
    change Except.ok (ratio _ _) = _
    rw [ratio, if_neg hpos.ne']
  · rwa [ratio, if_neg hpos.ne'] at hC

omit [IsStrictOrderedRing K] in
/-- **C98** (the defect of `tcond()`): when no mode is retained (`num_svdmodes = -max_modes` is accepted and becomes
`0`), the reported value is the condition number for all modes. -/
theorem C98_tcond_no_modes (s : Tsvd K) (p : L2Pre K) (hp : s.pre = some p) (hn : s.nmodes = some 0) :
    s.tcond = ({ s with nmodes := some (p.svals.length : Int) } : Tsvd K).tcond := by
  simp only [Tsvd.tcond, hp, hn]
  cases s.data with
  | none => rfl
  | some _ =>
    simp only
    congr 1
    funext first
    have : pyGet p.svals ((0 : Int) - 1) = pyGet p.svals ((p.svals.length : Int) - 1) := by
      rw [pyGet, pyGet]
      cases p.svals with
      | nil => rfl
      | cons x xs =>
        have h1 : ((x :: xs).length : Int) ≥ 1 := by rw [length_cons]; omega
        generalize ((x :: xs).length : Int) = n at h1 ⊢
        have h2 : (if (0 : Int) - 1 < 0 then 0 - 1 + n else 0 - 1) = n - 1 := by
          rw [if_pos (by omega)]; omega
        have h3 : (if n - 1 < 0 then n - 1 + n else n - 1) = n - 1 := if_neg (by omega)
        simp only [h2, h3]
    rw [this]

/-! ### `TotalLeastSquaresSolver.augcond` -/

omit [LinearOrder K] [IsStrictOrderedRing K] in
theorem augmented_WF {D Z : Mat K} (hD : D.WF) (hZ : Z.WF) (hk : Z.ncols = D.nrows) : (augmented D Z).WF := by
  have hZt : Z.t.rows.length = D.nrows := by simp [Mat.t, transpose, hk]
  constructor
  · simp only [augmented, length_zipWith, hD.1, hZt, min_self]
  · intro row hrow
    simp only [augmented] at hrow ⊢
    obtain ⟨i, hi, rfl⟩ := mem_iff_getElem.mp hrow
    rw [getElem_zipWith, length_append, hD.2 _ (getElem_mem _)]
    have := transpose_rows Z.ncols Z.rows _ (getElem_mem (l := Z.t.rows) (by
      simp only [length_zipWith] at hi; omega : i < Z.t.rows.length))
    rw [this, hZ.1]

/-- **C98** (`augcond`): after a successful `fit()`, the condition number of the augmented matrix `[D Zᵀ]`. -/
theorem C98_augcond (svd : Mat K → Except Err (Svd K)) (hsvd : ThinSvd svd)
    (solve : Mat K → Mat K → Except Err (Mat K)) (s s' : TlsC K) (A B : NdArg K) (D Z : Mat K)
    (ht : templateFit A B = .ok (D, Z)) (hD : D.WF) (hZ : Z.WF) (h0 : 0 < D.ncols + Z.nrows)
    (hf : s.fit svd solve A B = (s', .ok ())) :
    s'.tls.data = some (D, Z) ∧ (s.tls.fit svd solve A B) = (s'.tls, .ok ()) ∧
      ∃ v, s'.augcond = .ok v ∧ Cond2 (augmented D Z).rows (D.ncols + Z.nrows) v := by
  have hk : Z.ncols = D.nrows := (templateFit_ok ht).2
  unfold TlsC.fit at hf
  rw [ht] at hf
  simp only at hf
  have inv : ∀ h : (s.tls.fit svd solve A B).2 = .ok (),
      D.ncols + Z.nrows ≤ D.nrows ∧ ∃ u, svd (augmented D Z) = .ok u ∧ (s.tls.fit svd solve A B).1.data = some (D, Z) := by
    intro h
    obtain ⟨D0, Z0, u, X, h1, h2, h3, -, h5⟩ := tls_fit_ok svd solve s.tls (s.tls.fit svd solve A B).1 A B
      (Prod.ext rfl h)
    rw [ht] at h1
    obtain ⟨rfl, rfl⟩ := Prod.mk.inj (Except.ok.inj h1)
    exact ⟨h2, u, h3, by rw [h5]⟩
  split at hf
  · rename_i hlt
    exact absurd (inv (congrArg Prod.snd hf)).1 (by omega)
  · rename_i hge
    cases hu : svd (augmented D Z) with
    | error e =>
      rw [hu] at hf
      obtain ⟨-, u, hu', -⟩ := inv (congrArg Prod.snd hf)
      rw [hu] at hu'
      cases hu'
    | ok u =>
      rw [hu] at hf
      obtain ⟨hS, hl, -, hnn⟩ := hsvd _ u (augmented_WF hD hZ hk) hu
      obtain ⟨v, e, hv⟩ := svd_cond hS (augmented_WF hD hZ hk)
        (hl.trans (min_eq_right (by simp only [augmented]; omega))) h0 hnn
      simp only [e] at hf
      have h2 := congrArg Prod.snd hf
      obtain ⟨-, _, -, hd⟩ := inv h2
      obtain rfl := (congrArg Prod.fst hf).symm
      exact ⟨hd, Prod.ext rfl h2, v, by rw [TlsC.augcond]; simp only [hd], hv⟩

omit [IsStrictOrderedRing K] in
/-- **C98** (the defect of a refused fit): a new total least-squares solver given too few data raises `ValueError`
after storing them; from then on `augcond` and `str(solver)` raise `AttributeError` although the solver counts as
trained. -/
theorem C98_refused_fit (svd : Mat K → Except Err (Svd K)) (solve : Mat K → Mat K → Except Err (Mat K))
    (cond : Mat K → Except Err (Val K)) (A B : NdArg K) (D Z : Mat K) (ht : templateFit A B = .ok (D, Z))
    (hk : D.nrows < D.ncols + Z.nrows) (v : Val K) (hc : cond D = .ok v) :
    ∃ s' : TlsC K, TlsC.fit svd solve ⟨⟨none, none⟩, none⟩ A B = (s', .error .value) ∧
      s'.tls.data = some (D, Z) ∧ baseCond cond s'.tls.data = .ok v ∧
      s'.augcond = .error .attribute ∧ s'.str cond = .error .attribute := by
  refine ⟨⟨⟨some (D, Z), none⟩, none⟩, ?_, rfl, hc, rfl, ?_⟩
  · unfold TlsC.fit Tls.fit
    rw [ht]
    simp only
    rw [if_pos hk, if_pos hk]
  · rw [TlsC.str]
    simp only [hc]
    rfl

end

/-! ### Witnesses -/

/-- The decompositions of the matrices of the examples; other matrices are refused. -/
def condSvd (A : Mat ℚ) : Except Err (Svd ℚ) :=
  if A = ⟨2, 2, [[3, 4], [-4/5, 3/5]]⟩ then
    .ok ⟨⟨2, 2, [[1, 0], [0, 1]]⟩, [5, 1], ⟨2, 2, [[3/5, 4/5], [-4/5, 3/5]]⟩⟩
  else if A = ⟨1, 2, [[1, 0]]⟩ then .ok ⟨⟨1, 1, [[1]]⟩, [1], ⟨1, 2, [[1, 0]]⟩⟩
  else .error .linalg

theorem isSVD_square : IsSVD (K := ℚ) ⟨2, 2, [[3, 4], [-4/5, 3/5]]⟩
    ⟨⟨2, 2, [[1, 0], [0, 1]]⟩, [5, 1], ⟨2, 2, [[3/5, 4/5], [-4/5, 3/5]]⟩⟩ := by
  refine ⟨by decide +kernel, by decide +kernel, rfl, rfl, rfl, rfl, ?_, ?_, ?_⟩
  · intro x hx
    match x, hx with
    | [a, b], _ => simp [matVec, dot]; ring
  · intro v w hv hw
    match v, hv, w, hw with
    | [a, b], _, [c, d], _ => simp [matVec, dot]
  · intro v hv
    match v, hv with
    | [a, b], _ => simp [matVec, dot, vecMat, vadd, vsmul]; constructor <;> ring

theorem isSVD_wide : IsSVD (K := ℚ) ⟨1, 2, [[1, 0]]⟩ ⟨⟨1, 1, [[1]]⟩, [1], ⟨1, 2, [[1, 0]]⟩⟩ := by
  refine ⟨by decide +kernel, by decide +kernel, rfl, rfl, rfl, rfl, ?_, ?_, ?_⟩
  · intro x hx
    match x, hx with
    | [a, b], _ => simp [matVec, dot]
  · intro v w hv hw
    match v, hv, w, hw with
    | [a], _, [c], _ => simp [matVec, dot]
  · intro v hv
    match v, hv with
    | [a], _ => simp [matVec, dot, vecMat, vadd, vsmul]

theorem condSvd_thin : ThinSvd condSvd := by
  intro A u _ h
  unfold condSvd at h
  split at h
  · rename_i hA
    subst hA
    obtain rfl := Except.ok.inj h
    exact ⟨isSVD_square, rfl, by decide +kernel, by decide +kernel⟩
  · split at h
    · rename_i hA
      subst hA
      obtain rfl := Except.ok.inj h
      exact ⟨isSVD_wide, rfl, by decide +kernel, by decide +kernel⟩
    · cases h

/-- Square data: `cond()` is 5; with `λ = 0` so is `regcond()` up to the square root. -/
example : let s := (L2.fit condSvd ⟨some (0 : ℚ), none, none⟩ (.mat ⟨2, 2, [[3, 4], [-4/5, 3/5]]⟩) (.vec [1, 1])).1
    s.cond = .ok (.num 5) ∧ s.regcond (fun x => if x = 25 then 5 else 0) = .ok (.num 5) := by decide +kernel

/-- Its state meets the hypotheses of `C98_cond`. -/
example : Cond2 (K := ℚ) [[3, 4], [-4/5, 3/5]] 2 (.num 5) := by
  obtain ⟨v, e, hv⟩ := C98_cond condSvd condSvd_thin
    (L2.fit condSvd ⟨some (0 : ℚ), none, none⟩ (.mat ⟨2, 2, [[3, 4], [-4/5, 3/5]]⟩) (.vec [1, 1])).1
    (by
      intro D Z h
      have h' : some ((⟨2, 2, [[3, 4], [-4/5, 3/5]]⟩, ⟨1, 2, [[1, 1]]⟩) : Mat ℚ × Mat ℚ) = some (D, Z) := by
        rw [← h]; decide +kernel
      obtain ⟨rfl, rfl⟩ := Prod.mk.inj (Option.some.inj h')
      exact ⟨rfl, ⟨⟨2, 2, [[1, 0], [0, 1]]⟩, [5, 1], ⟨2, 2, [[3/5, 4/5], [-4/5, 3/5]]⟩⟩, by decide +kernel,
        by decide +kernel⟩)
    ⟨2, 2, [[3, 4], [-4/5, 3/5]]⟩ ⟨1, 2, [[1, 1]]⟩ (by decide +kernel) (by decide +kernel) (by decide) (by decide)
  have : (L2.fit condSvd ⟨some (0 : ℚ), none, none⟩ (.mat ⟨2, 2, [[3, 4], [-4/5, 3/5]]⟩) (.vec [1, 1])).1.cond
      = .ok (.num 5) := by decide +kernel
  rw [this] at e
  obtain rfl := (Except.ok.inj e).symm
  exact hv

/-- **C98** (the defect of `regcond()`, a witness): one data point, two unknowns. `D = [1 0]` and `λ² = 1/8` (any real
`λ > 0` would do; here the quotients are squares): the condition number of `[Dᵀ λI]ᵀ` is `3`, whereas `regcond()`
reports `1`. -/
theorem C98_regcond_not_cond {K : Type} [Field K] [LinearOrder K] [IsStrictOrderedRing K] (sqrt : K → K)
    (hq : SquareRoot sqrt) (reg : K) (hr : 0 < reg) (h8 : reg ^ 2 * 8 = 1) :
    let s : L2 K K := ⟨some reg, some (⟨1, 2, [[1, 0]]⟩, ⟨1, 1, [[1]]⟩), some ⟨[1], ⟨1, 1, [[1]]⟩, ⟨1, 2, [[1, 0]]⟩⟩⟩
    (L2.fit (fun _ => .ok ⟨⟨1, 1, [[1]]⟩, [1], ⟨1, 2, [[1, 0]]⟩⟩) ⟨some reg, none, none⟩ (.mat ⟨1, 2, [[1, 0]]⟩)
      (.vec [1])).1 = s ∧
    s.regcond sqrt = .ok (.num 1) ∧ Cond2 (padded ⟨1, 2, [[1, 0]]⟩ reg) 2 (.num 3) ∧
    ¬ Cond2 (padded ⟨1, 2, [[1, 0]]⟩ reg) 2 (.num 1) := by
  have h1 : sqrt 1 = 1 := by
    obtain ⟨a, b⟩ := hq 1 zero_le_one
    nlinarith [sq_nonneg (sqrt 1 - 1)]
  have hpos : (1 : K) ^ 2 + reg ^ 2 ≠ 0 := by positivity
  have h3 : Cond2 (padded ⟨1, 2, [[1, 0]]⟩ reg) 2 (.num 3) := by
    have g : ∀ x : List K, x.length = 2 → gain (padded ⟨1, 2, [[1, 0]]⟩ reg) x = x.getD 0 0 ^ 2 + reg ^ 2 * sumSq x := by
      intro x hx
      rw [gain_padded _ reg x hx]
      match x, hx with
      | [a, b], _ => simp [gain, matVec, dot, sumSq]
    refine ⟨by norm_num, 1 + reg ^ 2, reg ^ 2, by positivity, ⟨?_, ?_, ?_, ?_⟩, by nlinarith⟩
    · intro x hx
      rw [g x hx]
      match x, hx with
      | [a, b], _ =>
        simp only [getD_cons_zero, sumSq, map_cons, map_nil, sum_cons, sum_nil]
        nlinarith [sq_nonneg b]
    · intro x hx
      rw [g x hx]
      nlinarith [sq_nonneg (x.getD 0 0)]
    · exact ⟨[1, 0], rfl, by simp [sumSq], by rw [g _ rfl]; simp [sumSq]⟩
    · exact ⟨[0, 1], rfl, by simp [sumSq], by rw [g _ rfl]; simp [sumSq]⟩
  refine ⟨by simp [L2.fit, templateFit, Mat.mul, matMul, vecMat, vadd, vsmul], ?_, h3, ?_⟩
  · simp only [L2.regcond, regSpread, spread, arrMax, arrMin, map_cons, map_nil, foldl_nil, bind, Except.bind]
    rw [ratio, if_neg hpos, div_self hpos]
    simp only [Val.sqrt, h1]
  · intro h
    have := C98_unique h3 h
    simp at this

/-- The hypotheses hold for the real numbers. -/
example : 0 < Real.sqrt (1 / 8) ∧ Real.sqrt (1 / 8) ^ 2 * 8 = 1 := by
  refine ⟨Real.sqrt_pos.2 (by norm_num), ?_⟩
  rw [Real.sq_sqrt (by norm_num)]
  norm_num

/-- Truncation to one mode: `tcond()` is 1; with all modes it is 5; `num_svdmodes = -2` is accepted, retains no mode,
and is reported like all modes. -/
example : let D : NdArg ℚ := .mat ⟨2, 2, [[3, 4], [-4/5, 3/5]]⟩
    (Tsvd.fit condSvd ⟨some 1, none, none⟩ D (.vec [1, 1])).1.tcond = .ok (.num 1) ∧
    (Tsvd.fit condSvd ⟨some 2, none, none⟩ D (.vec [1, 1])).1.tcond = .ok (.num 5) ∧
    (Tsvd.fit condSvd ⟨some (-2), none, none⟩ D (.vec [1, 1])).1.nmodes = some 0 ∧
    (Tsvd.fit condSvd ⟨some (-2), none, none⟩ D (.vec [1, 1])).1.tcond = .ok (.num 5) ∧
    (Tsvd.fit condSvd ⟨some (-2), none, none⟩ D (.vec [1, 1])).1.solve = .ok ⟨1, 2, [[0, 0]]⟩ := by decide +kernel

/-- A fitted total least-squares solver; a refused second fit keeps the old value for the new data. -/
theorem C98_augcond_stale :
    let s1 := (TlsC.fit condSvd tlsExSolve ⟨⟨none, none⟩, none⟩ (.mat ⟨2, 1, [[3], [-4/5]]⟩) (.vec [4, 3/5])).1
    let s2 := TlsC.fit condSvd tlsExSolve s1 (.mat ⟨1, 1, [[1]]⟩) (.vec [7])
    s1.augcond = .ok (.num 5) ∧ s2.2 = .error .value ∧
      s2.1.tls.data = some (⟨1, 1, [[1]]⟩, ⟨1, 1, [[7]]⟩) ∧ s2.1.augcond = .ok (.num 5) := by decide +kernel

end Opinf
