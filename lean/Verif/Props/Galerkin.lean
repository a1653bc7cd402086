import Verif.Props.Apply
import Verif.Lemmas.LinAlg

/-!
# C04 (all operator classes) and C06: Jacobians and Galerkin projection
-/

namespace Opinf

open List

variable {K : Type*}

/-- `op.apply(q, u)` for one state vector and one input vector. -/
def OpKind.applyV [CommSemiring K] (o : OpKind) (E : Mat K) (q u : List K) : Except Err (List K) :=
  (o.apply E (.vec q) (.vec u)).map Arg.toVec

/-- The entries have the shape `r × operator_dimension(r, m)`. -/
def OpKind.Fits (o : OpKind) (E : Mat K) (r m : Nat) : Prop :=
  E.WF ∧ E.nrows = r ∧ E.ncols = o.dim r m

theorem vec_shaped {n : Nat} {q : List K} (h : q.length = n) : (Arg.vec q).Shaped n 1 := by
  by_cases h1 : n = 1
  · exact Or.inl ⟨h1, h.trans h1⟩
  · exact Or.inr ⟨h1, h, rfl⟩

theorem vec_snaps {n : Nat} {q : List K} (h : q.length = n) : (Arg.vec q).snaps n = [q] := by
  by_cases h1 : n = 1
  · subst h1
    obtain ⟨x, rfl⟩ := length_eq_one_iff.mp h
    simp [Arg.snaps]
  · simp [Arg.snaps, h1]

theorem apply_vec_not_mat [CommSemiring K] (o : OpKind) (E : Mat K) (r m : Nat)
    (hF : o.Fits E r m) (q u : List K) (hq : q.length = r) (hu : u.length = m) (a : Arg K)
    (ha : o.apply E (.vec q) (.vec u) = .ok a) : a.isMat = false := by
  obtain ⟨hE, hEr, hEc⟩ := hF
  cases o with
  | const =>
    simp only [OpKind.apply, applyConst, Except.ok.injEq] at ha
    subst ha
    split <;> rfl
  | lin =>
    simp only [OpKind.apply, applyLin] at ha
    split at ha
    · simp only [Except.ok.injEq] at ha; subst ha; rfl
    · simp only [matArg] at ha
      split at ha
      · simp only [Except.ok.injEq] at ha; subst ha; rfl
      · simp at ha
  | kron k =>
    simp only [OpKind.apply, applyKron] at ha
    split at ha
    · simp only [Except.ok.injEq] at ha; subst ha; rfl
    · split at ha
      · simp at ha
      · simp only [Except.ok.injEq] at ha; subst ha; rfl
  | inp =>
    simp only [OpKind.apply] at ha
    simp only [OpKind.dim] at hEc
    by_cases h1 : E.ncols = 1
    · obtain ⟨x, rfl⟩ := length_eq_one_iff.mp (show u.length = 1 by omega)
      simp only [applyInp, h1, if_true] at ha
      split at ha
      · simp only [Except.ok.injEq] at ha; subst ha; rfl
      · simp only [length_singleton, gt_iff_lt, lt_self_iff_false, if_false, Except.ok.injEq] at ha
        subst ha; rfl
    · simp only [applyInp, h1, if_false, matArg] at ha
      split at ha
      · simp only [Except.ok.injEq] at ha; subst ha; rfl
      · simp at ha
  | stateInp =>
    simp only [OpKind.apply, applyStateInp] at ha
    simp only [OpKind.dim] at hEc
    split at ha
    · simp only [bmul] at ha
      split at ha
      · simp only [Except.ok.injEq] at ha; subst ha; rfl
      · simp at ha
    · rename_i h1
      have hb : (decide (E.nrows = 1) && decide (q.length > 1)) = false := by
        simp only [Bool.and_eq_false_iff, decide_eq_false_iff_not]; omega
      simp only [h1, decide_false, Bool.false_and, Bool.or_false] at ha
      simp only [hb, Bool.not_false, if_true] at ha
      split at ha
      · simp only [Except.ok.injEq] at ha; subst ha; rfl
      · simp at ha

/-- For one state and input, every operator class computes `entries @ (its data column)`. -/
theorem applyV_eq [CommSemiring K] (o : OpKind) (E : Mat K) (r m : Nat)
    (hF : o.Fits E r m) (q u : List K) (hq : q.length = r) (hu : u.length = m) :
    o.applyV E q u = .ok (matVec E.rows (o.dataCol q u)) := by
  obtain ⟨hE, hEr, hEc⟩ := hF
  obtain ⟨a, ha, hsh, hsn⟩ := C03_apply_eq_entries_datablock o E hE r m 1 hEr hEc Nat.one_pos
    (.vec q) (.vec u) (vec_shaped hq) (vec_shaped hu) ⟨by simp [Arg.isMat], by simp [Arg.isMat]⟩
  have hm := apply_vec_not_mat o E r m ⟨hE, hEr, hEc⟩ q u hq hu a ha
  rw [vec_snaps hq, vec_snaps hu] at hsn
  have := toVec_spec hsh hm
  rw [hsn] at this
  simp only [OpKind.datablock, zipWith_cons_cons, zipWith_nil_left, map_cons, map_nil,
    cons.injEq, and_true] at this
  rw [OpKind.applyV, ha, Except.map, this]

/-! ## C04 -/

theorem chunks_succ (r m : Nat) (row : List K) :
    chunks r (m + 1) row = row.take r :: chunks r m (row.drop r) := by
  simp only [chunks, range_succ_eq_map, map_cons, map_map, Nat.zero_mul, drop_zero]
  congr 1
  apply map_congr_left
  intro i _
  simp only [Function.comp, drop_drop]
  congr 2
  rw [Nat.succ_eq_add_one]; ring

theorem chunks_length {r m : Nat} {row : List K} (h : row.length = m * r) :
    ∀ c ∈ chunks r m row, c.length = r := by
  intro c hc
  simp only [chunks, mem_map, mem_range] at hc
  obtain ⟨i, hi, rfl⟩ := hc
  rw [length_take, length_drop, h]
  have : (i + 1) * r ≤ m * r := Nat.mul_le_mul_right r hi
  have h2 : (i + 1) * r = i * r + r := by ring
  omega

theorem dot_chunks [CommSemiring K] (r m : Nat) (row u d : List K) (hrow : row.length = m * r)
    (hu : u.length = m) (hd : d.length = r) :
    dot ((zipWith vsmul u (chunks r m row)).foldl vadd (replicate r 0)) d = dot row (kron u d) := by
  rw [dot_foldl_vadd, dot_replicate_zero, zero_add]
  · induction m generalizing row u with
    | zero =>
      have : u = [] := by simpa using hu
      subst this; simp [kron]
    | succ m ih =>
      cases u with
      | nil => simp at hu
      | cons x u =>
        have e : (m + 1) * r = m * r + r := by ring
        rw [chunks_succ, zipWith_cons_cons, map_cons, sum_cons,
          ih (row.drop r) u (by rw [length_drop, hrow]; omega) (by simpa using hu)]
        conv_rhs => rw [← take_append_drop r row]
        rw [show kron (x :: u) d = vsmul x d ++ kron u d from by simp [kron, vsmul],
          dot_append _ _ _ _ (by rw [length_take, length_vsmul, hrow, hd]; omega),
          dot_vsmul_left, dot_vsmul_right]
  · intro l hl
    rw [mem_iff_getElem] at hl
    obtain ⟨i, hi, rfl⟩ := hl
    rw [getElem_zipWith, length_vsmul, length_replicate, chunks_length hrow _ (getElem_mem _)]

theorem kron_vadd_right [CommSemiring K] (u q d : List K) (h : K) (hqd : q.length = d.length) :
    kron u (vadd q (vsmul h d)) = vadd (kron u q) (vsmul h (kron u d)) := by
  induction u with
  | nil => rfl
  | cons x u ih =>
    have e : ∀ z : List K, kron (x :: u) z = vsmul x z ++ kron u z := by
      intro z; simp [kron, vsmul]
    rw [e, e, e, ih]
    simp only [vadd, vsmul, map_append]
    rw [zipWith_append (by simp [hqd])]
    congr 1
    simp only [map_zipWith, zipWith_map_left, zipWith_map_right, map_map]
    congr 1
    funext a b
    simp only [Function.comp]
    ring

theorem vadd_zero_right [CommSemiring K] (a : List K) (c : K) (n : Nat) (h : a.length = n) :
    vadd a (vsmul c (replicate n 0)) = a := by
  subst h
  simp only [vsmul, map_replicate, mul_zero, vadd]
  induction a with
  | nil => rfl
  | cons x a ih => simp [replicate_succ, ih]

/-- **C04.** For every operator class, state `q`, input `u` and direction `d`, `jacobian(q, u)`
returns an `r × r` matrix `J`, and for one fixed set of coefficient vectors and *every* step `h`,
`apply(q + h d, u) = apply(q, u) + h J d + h² R₂ + h³ R₃ + h⁴ R₄`: `J` is the exact derivative. -/
theorem C04_jacobian_is_derivative [Field K] [CharZero K] (o : OpKind) (E : Mat K) (r m : Nat)
    (hr : 0 < r) (hF : o.Fits E r m) (q u d : List K) (hq : q.length = r) (hu : u.length = m)
    (hd : d.length = r) :
    ∃ J : List (List K), o.jacobian E q u = .ok J ∧ J.length = r ∧ (∀ row ∈ J, row.length = r) ∧
      ∃ R2 R3 R4 : List K, R2.length = r ∧ R3.length = r ∧ R4.length = r ∧
        ∀ h : K, ∃ a0 a1 : List K,
          o.applyV E q u = .ok a0 ∧ o.applyV E (vadd q (vsmul h d)) u = .ok a1 ∧
          a1 = vadd (vadd (vadd (vadd a0 (vsmul h (matVec J d))) (vsmul (h ^ 2) R2))
            (vsmul (h ^ 3) R3)) (vsmul (h ^ 4) R4) := by
  have hqd : ∀ h : K, (vadd q (vsmul h d)).length = r := by
    intro h; simp [hq, hd]
  have hrows : E.rows.length = r := hF.1.1.trans hF.2.1
  -- operators that are affine in the state: no higher-order terms
  have affine : ∀ J : List (List K), J.length = r →
      (∀ h : K, matVec E.rows (o.dataCol (vadd q (vsmul h d)) u)
        = vadd (matVec E.rows (o.dataCol q u)) (vsmul h (matVec J d))) →
      ∃ R2 R3 R4 : List K, R2.length = r ∧ R3.length = r ∧ R4.length = r ∧
        ∀ h : K, ∃ a0 a1 : List K,
          o.applyV E q u = .ok a0 ∧ o.applyV E (vadd q (vsmul h d)) u = .ok a1 ∧
          a1 = vadd (vadd (vadd (vadd a0 (vsmul h (matVec J d))) (vsmul (h ^ 2) R2))
            (vsmul (h ^ 3) R3)) (vsmul (h ^ 4) R4) := by
    intro J hJ hJd
    refine ⟨replicate r 0, replicate r 0, replicate r 0, by simp, by simp, by simp, ?_⟩
    intro h
    refine ⟨_, _, applyV_eq o E r m hF q u hq hu,
      applyV_eq o E r m hF _ u (hqd h) hu, ?_⟩
    have hl : (vadd (matVec E.rows (o.dataCol q u)) (vsmul h (matVec J d))).length = r := by
      simp [length_matVec, hrows, hJ]
    rw [hJd h, vadd_zero_right _ _ _ hl, vadd_zero_right _ _ _ hl, vadd_zero_right _ _ _ hl]
  have zeroJ : (∀ q' : List K, q'.length = r → matVec E.rows (o.dataCol q' u)
      = matVec E.rows (o.dataCol q u)) → ∀ h : K, matVec E.rows (o.dataCol (vadd q (vsmul h d)) u)
        = vadd (matVec E.rows (o.dataCol q u)) (vsmul h (matVec (replicate r (replicate r 0)) d)) := by
    intro hind h
    rw [hind _ (hqd h)]
    have : matVec (replicate r (replicate r 0)) d = replicate r (0 : K) := by
      simp [matVec]
    rw [this, vadd_zero_right _ _ _ (by rw [length_matVec, hrows])]
  have hzl : ∀ row ∈ replicate r (replicate r (0 : K)), row.length = r := by
    intro row hrow
    rw [eq_of_mem_replicate hrow, length_replicate]
  cases o with
  | const =>
    refine ⟨replicate r (replicate r 0), by simp only [OpKind.jacobian, hF.2.1], by simp, hzl, ?_⟩
    exact affine _ (by simp) (zeroJ fun _ _ => rfl)
  | inp =>
    refine ⟨replicate r (replicate r 0), by simp only [OpKind.jacobian, hF.2.1], by simp, hzl, ?_⟩
    exact affine _ (by simp) (zeroJ fun _ _ => rfl)
  | lin =>
    refine ⟨E.rows, rfl, hrows, fun row hrow => (hF.1.2 row hrow).trans hF.2.2, ?_⟩
    refine affine _ hrows ?_
    intro h
    simp only [OpKind.dataCol]
    rw [matVec_vadd _ _ _ (by simp [hq, hd]), matVec_vsmul]
  | stateInp =>
    have hc : E.ncols = r * m := hF.2.2
    have hm : E.ncols / E.nrows = m := by
      rw [hc, hF.2.1, Nat.mul_div_cancel_left m hr]
    refine ⟨E.rows.map fun row =>
      (zipWith vsmul u (chunks r m row)).foldl vadd (replicate r 0), ?_, by simpa using hrows,
      ?_, ?_⟩
    · simp only [OpKind.jacobian]
      rw [hm, if_neg (by simp [hu]), hF.2.1]
    · intro row hrow
      simp only [mem_map] at hrow
      obtain ⟨row', hrow', rfl⟩ := hrow
      rw [length_foldl_vadd, length_replicate]
      intro l hl
      rw [mem_iff_getElem] at hl
      obtain ⟨i, hi, rfl⟩ := hl
      rw [getElem_zipWith, length_vsmul, length_replicate]
      exact chunks_length (by rw [hF.1.2 row' hrow', hc, mul_comm]) _ (getElem_mem _)
    · refine affine _ (by simpa using hrows) ?_
      intro h
      have hJ : matVec (E.rows.map fun row =>
          (zipWith vsmul u (chunks r m row)).foldl vadd (replicate r 0)) d
          = matVec E.rows (kron u d) := by
        simp only [matVec, map_map]
        apply map_congr_left
        intro row hrow
        exact dot_chunks r m row u d (by rw [hF.1.2 row hrow, hc, mul_comm]) hu hd
      rw [hJ]
      simp only [OpKind.dataCol]
      rw [kron_vadd_right _ _ _ _ (hq.trans hd.symm), matVec_vadd _ _ _ (by
        simp [length_kron, hq, hd]), matVec_vsmul]
  | kron k =>
    have hst : Stored k E := ⟨hF.1, by rw [hF.2.2, hF.2.1]; rfl⟩
    obtain ⟨J, h1, h2, h3, R2, R3, R4, h4, h5, h6, h7⟩ :=
      C04_kron_jacobian_is_derivative k 0 E hst q d (hq.trans hF.2.1.symm) (hd.trans hF.2.1.symm)
    rw [hF.2.1] at h2 h3 h4 h5 h6
    refine ⟨J, h1, h2, h3, R2, R3, R4, h4, h5, h6, ?_⟩
    intro h
    obtain ⟨a0, a1, e0, e1, e2⟩ := h7 h
    rw [apply_stored k E none hst _ (hq.trans hF.2.1.symm)] at e0
    rw [apply_stored k E none hst _ ((hqd h).trans hF.2.1.symm)] at e1
    refine ⟨a0, a1, ?_, ?_, e2⟩
    · rw [applyV_eq _ E r m hF q u hq hu]; exact e0
    · rw [applyV_eq _ E r m hF _ u (hqd h) hu]; exact e1

/-- **C04, error branch.** The state-input Jacobian raises `ValueError` exactly for an input whose
length is not `m`. -/
theorem C04_stateinput_jacobian_error [Field K] (E : Mat K) (q u : List K) :
    (OpKind.stateInp.jacobian E q u = .error .value ↔ u.length ≠ E.ncols / E.nrows) := by
  simp only [OpKind.jacobian]
  split <;> simp_all

example : OpKind.stateInp.Fits (⟨2, 4, [[1, 2, 3, 4], [0, 5, -1, 7]]⟩ : Mat ℚ) 2 2 := by
  refine ⟨by decide, rfl, rfl⟩
example : OpKind.stateInp.jacobian (⟨2, 4, [[1, 2, 3, 4], [0, 5, -1, 7]]⟩ : Mat ℚ) [1, 1] [10, 1]
    = .ok [[13, 24], [-1, 57]] := by decide +kernel

/-! ## C06 -/

/-- The inner products `WᵀV` of the columns of two `n × r` bases given by rows. -/
def gram [Semiring K] (r : Nat) (W V : List (List K)) : List (List K) :=
  matMul r (transpose r W) V

/-- The external linear solver (`scipy.linalg.solve`) applied to `G` succeeds for every right-hand
side with `r` rows and returns an exact solution of `G Y = X`. -/
def SolvesExactly [Semiring K] (solve : List (List K) → Mat K → Except Err (Mat K))
    (G : List (List K)) (r : Nat) : Prop :=
  ∀ X : Mat K, X.WF → X.nrows = r → ∃ Y : Mat K, solve G X = .ok Y ∧ Y.WF ∧ Y.nrows = r ∧
    Y.ncols = X.ncols ∧ matMul X.ncols G Y.rows = X.rows

/-- Number of columns before compression. -/
def OpKind.fullDim (r m : Nat) : OpKind → Nat
  | .kron k => r ^ k.deg
  | o => o.dim r m

/-- Data column before compression. -/
def OpKind.fullCol [CommSemiring K] (q u : List K) : OpKind → List K
  | .kron k => kronProd k q
  | o => o.dataCol q u

/-- What the projected matrix does before `set_entries`. -/
theorem pg_spec [Field K] [CharZero K] (o : OpKind) (E : Mat K) (n m r : Nat) (hn : 0 < n)
    (hF : o.Fits E n m) (V : List (List K)) (hV : V.length = n)
    (hVr : ∀ row ∈ V, row.length = r) :
    ∃ P : Mat K, o.pg E r V = .ok P ∧ P.WF ∧ P.nrows = n ∧
      P.ncols = o.fullDim r m ∧
      ∀ q u : List K, q.length = r → u.length = m →
        matVec P.rows (o.fullCol q u)
          = matVec E.rows (o.dataCol (matVec V q) u) := by
  obtain ⟨hE, hEr, hEc⟩ := hF
  cases o with
  | const => exact ⟨E, rfl, hE, hEr, hEc, fun q u _ _ => rfl⟩
  | inp => exact ⟨E, rfl, hE, hEr, hEc, fun q u _ _ => rfl⟩
  | lin =>
    refine ⟨_, rfl, ⟨by simpa [matMul] using hE.1, matMul_rows r _ _ hVr⟩, hEr, rfl, ?_⟩
    intro q u hq hu
    exact matVec_matMul r _ _ _ hVr
  | stateInp =>
    have hc : E.ncols = n * m := hEc
    have hm : E.ncols / E.nrows = m := by
      rw [hc, hEr, Nat.mul_div_cancel_left m hn]
    have hk := matKron_rows (eye m) V m r (eye_rows m) hVr
    refine ⟨_, rfl, ⟨by simpa [matMul] using hE.1, ?_⟩, hEr, ?_, ?_⟩
    · rw [hm]; exact matMul_rows _ _ _ hk
    · rw [hm]; exact mul_comm m r
    · intro q u hq hu
      simp only [OpKind.dataCol, OpKind.fullCol, hm]
      rw [matVec_matMul _ _ _ _ hk, matVec_matKron _ _ _ _ (by rw [hq]; exact hVr),
        matVec_eye m u hu]
  | kron k =>
    have hc : E.ncols = k.dim n := hEc
    obtain ⟨H, hH, hHw, hHn, hHc, hback⟩ := C02_compress_expand k 0 E hE n hc
    have hrowsE : E.rows = H.rows.map (k.compressRow n) := by
      rw [Kind.compress, hHc, exactRoot_pow (deg_pos k).ne'] at hback
      simp only [Except.ok.injEq] at hback
      rw [← hback]
    set VV : List (List K) := match k with
      | .quad => matKron V V
      | .cubic => matKron V (matKron V V)
      | .quartic => matKron V (matKron V (matKron V V)) with hVV
    have h2 : ∀ row ∈ matKron V V, row.length = r * r := matKron_rows V V r r hVr hVr
    have h3 : ∀ row ∈ matKron V (matKron V V), row.length = r * (r * r) :=
      matKron_rows V _ r _ hVr h2
    have hVVr : ∀ row ∈ VV, row.length = r ^ k.deg := by
      rw [hVV]
      cases k
      · intro row hrow; rw [h2 row hrow]; simp only [Kind.deg]; ring
      · intro row hrow; rw [h3 row hrow]; simp only [Kind.deg]; ring
      · intro row hrow; rw [matKron_rows V _ r _ hVr h3 row hrow]; simp only [Kind.deg]; ring
    have hVVq : ∀ q : List K, q.length = r → matVec VV (kronProd k q) = kronProd k (matVec V q) := by
      intro q hq
      have e2 : matVec (matKron V V) (kron q q) = kron (matVec V q) (matVec V q) :=
        matVec_matKron _ _ _ _ (by rw [hq]; exact hVr)
      have e3 : matVec (matKron V (matKron V V)) (kron q (kron q q))
          = kron (matVec V q) (kron (matVec V q) (matVec V q)) := by
        rw [matVec_matKron _ _ _ _ (by rw [length_kron, hq]; exact h2), e2]
      rw [hVV]
      cases k
      · exact e2
      · exact e3
      · simp only [kronProd]
        rw [matVec_matKron _ _ _ _ (by rw [length_kron, length_kron, hq]; exact h3), e3]
    refine ⟨⟨E.nrows, r ^ k.deg, matMul (r ^ k.deg) H.rows VV⟩, ?_, ?_, hEr, rfl, ?_⟩
    · simp only [OpKind.pg, hH, bind, Except.bind, pure, Except.pure]
      cases k <;> rfl
    · exact ⟨by simpa [matMul] using hHw.1.trans hHn, matMul_rows _ _ _ hVVr⟩
    · intro q u hq hu
      simp only [OpKind.dataCol, OpKind.fullCol]
      rw [matVec_matMul _ _ _ _ hVVr, hVVq q hq, hrowsE]
      simp only [matVec, map_map]
      apply map_congr_left
      intro row hrow
      simp only [Function.comp]
      have hl : (matVec V q).length = n := by rw [length_matVec, hV]
      rw [compressRow_eq, kronProd_eq]
      change _ = dot _ (k.ckron (matVec V q))
      rw [ckron_eq, hl]
      exact (dot_compress k.deg n row (matVec V q) (by rw [hHw.2 row hrow, hHc]) hl).symm

/-- `set_entries` of the projected matrix stores entries with the same action. -/
theorem setEntries_spec [Field K] (o : OpKind) (Y : Mat K) (r m : Nat) (hr : 0 < r)
    (hY : Y.WF) (hYr : Y.nrows = r)
    (hYc : Y.ncols = o.fullDim r m) :
    ∃ F : Mat K, o.setEntries Y = .ok F ∧ o.Fits F r m ∧
      ∀ q u : List K, q.length = r → u.length = m →
        matVec F.rows (o.dataCol q u)
          = matVec Y.rows (o.fullCol q u) := by
  cases o with
  | const =>
    refine ⟨Y, ?_, ⟨hY, hYr, hYc⟩, fun q u _ _ => rfl⟩
    have : Y.ncols = 1 := hYc
    simp [OpKind.setEntries, this]
  | inp => exact ⟨Y, rfl, ⟨hY, hYr, hYc⟩, fun q u _ _ => rfl⟩
  | lin =>
    refine ⟨Y, ?_, ⟨hY, hYr, hYc⟩, fun q u _ _ => rfl⟩
    have : Y.ncols = r := hYc
    simp [OpKind.setEntries, this, hYr]
  | stateInp =>
    refine ⟨Y, ?_, ⟨hY, hYr, hYc⟩, fun q u _ _ => rfl⟩
    have : Y.ncols = r * m := hYc
    simp [OpKind.setEntries, this, hYr, Nat.mul_div_cancel_left m hr]
  | kron k =>
    have hYc' : Y.ncols = Y.nrows ^ k.deg := by rw [hYr]; exact hYc
    rcases setEntries_cases k none none Y hY with ⟨-, hs, hst⟩ | ⟨h, -⟩ | ⟨h, -⟩
    · refine ⟨⟨Y.nrows, k.dim Y.nrows, Y.rows.map (k.compressRow Y.nrows)⟩, ?_,
        ⟨hst.1, hYr, by rw [← hYr]; rfl⟩, ?_⟩
      · change (do
          let op ← (KronOp.empty k).setEntries Y
          match op.entries with
          | some C => return C
          | none => throw Err.value) = _
        rw [KronOp.empty, hs]; rfl
      · intro q u hq _
        simp only [OpKind.dataCol, OpKind.fullCol, matVec, map_map]
        apply map_congr_left
        intro row hrow
        simp only [Function.comp]
        rw [compressRow_eq, ckron_eq, kronProd_eq, hq, hYr]
        exact dot_compress k.deg r row q (by rw [hY.2 row hrow]; exact hYc) hq
    · exact absurd hYc' h
    · exact absurd hYc' h

/-- **C06.** For every operator class, trial basis `V` and test basis `W` (`n × r`), `galerkin`
returns an operator `F` of state dimension `r` of the same class (input dimension unchanged) such
that for every reduced state and input `(WᵀV) F(q̂, u) = Wᵀ Op(V q̂, u)`. If `WᵀV = I` no solve
takes place and `F(q̂, u) = Wᵀ Op(V q̂, u)`. -/
theorem C06_galerkin_commutes [Field K] [CharZero K] [DecidableEq K]
    (solve : List (List K) → Mat K → Except Err (Mat K)) (o : OpKind) (E : Mat K)
    (n m r : Nat) (hn : 0 < n) (hr : 0 < r) (hF : o.Fits E n m) (V W : List (List K))
    (hV : V.length = n) (hVr : ∀ row ∈ V, row.length = r) (hW : W.length = n)
    (hsolve : gram r W V ≠ eye r → SolvesExactly solve (gram r W V) r) :
    ∃ F : Mat K, o.galerkin solve E r r V W = .ok F ∧ o.Fits F r m ∧
      ∀ q u : List K, q.length = r → u.length = m →
        ∃ y z : List K, o.applyV F q u = .ok y ∧ o.applyV E (matVec V q) u = .ok z ∧
          matVec (gram r W V) y = matVec (transpose r W) z ∧
          (gram r W V = eye r → y = matVec (transpose r W) z) := by
  obtain ⟨P, hP, hPw, hPn, hPc, hPa⟩ := pg_spec o E n m r hn hF V hV hVr
  set X : Mat K := ⟨r, P.ncols, matMul P.ncols (transpose r W) P.rows⟩ with hX
  have hXw : X.WF := ⟨by simp [hX, matMul, transpose], matMul_rows _ _ _ hPw.2⟩
  -- the stored matrix before `set_entries`
  have hYex : ∃ Y : Mat K, (if gram r W V = eye r then Except.ok X else solve (gram r W V) X) = .ok Y ∧
      Y.WF ∧ Y.nrows = r ∧ Y.ncols = P.ncols ∧ matMul P.ncols (gram r W V) Y.rows = X.rows ∧
      (gram r W V = eye r → Y = X) := by
    by_cases hI : gram r W V = eye r
    · refine ⟨X, by rw [if_pos hI], hXw, rfl, rfl, ?_, fun _ => rfl⟩
      rw [hI]
      -- `eye r @ X = X`
      have hrows : ∀ row ∈ X.rows, row.length = P.ncols := hXw.2
      have hlen : X.rows.length = r := hXw.1
      generalize X.rows = R at hrows hlen
      apply ext_getElem (by simp [matMul, eye, hlen])
      intro i h1 h2
      have hl1 : (matMul P.ncols (eye r) R)[i].length = P.ncols :=
        matMul_rows _ _ _ hrows _ (getElem_mem _)
      have hl2 := hrows R[i] (getElem_mem _)
      apply ext_getElem (by rw [hl1, hl2])
      intro j h3 h4
      have key : ∀ z : List K, dot (matMul P.ncols (eye r) R)[i] z = dot R[i] z := by
        intro z
        have e := matVec_matMul P.ncols (eye r) R z hrows
        rw [matVec_eye r (matVec R z) (by rw [length_matVec, hlen])] at e
        have e2 := congrArg (fun l : List K => l.getD i 0) e
        simpa [matVec, getElem?_map, getElem?_eq_getElem h1, getElem?_eq_getElem h2] using e2
      have hj : j < P.ncols := hl1 ▸ h3
      have := key ((range P.ncols).map fun t => if j = t then (1 : K) else 0)
      rw [dot_comm', dot_comm' R[i], dot_delta j _ _ hl1 hj, dot_delta j _ _ hl2 hj] at this
      simpa [getElem?_eq_getElem h3, getElem?_eq_getElem h4] using this
    · obtain ⟨Y, h1, h2, h3, h4, h5⟩ := hsolve hI X hXw rfl
      exact ⟨Y, by rw [if_neg hI, h1], h2, h3, h4, h5, fun h => absurd h hI⟩
  obtain ⟨Y, hY, hYw, hYr, hYc, hYs, hYI⟩ := hYex
  obtain ⟨F, hFs, hFF, hFa⟩ := setEntries_spec o Y r m hr hYw hYr (by
    rw [hYc]; exact hPc)
  refine ⟨F, ?_, hFF, ?_⟩
  · unfold OpKind.galerkin
    rw [if_neg (by rw [hF.2.1, hW]; simp), if_neg (by simp), hP]
    change (if gram r W V = eye r then o.setEntries X
      else (solve (gram r W V) X >>= fun Y => o.setEntries Y)) = _
    by_cases hI : gram r W V = eye r
    · rw [if_pos hI] at hY ⊢
      rw [Except.ok.injEq] at hY
      rw [hY]; exact hFs
    · rw [if_neg hI] at hY ⊢
      rw [hY]; exact hFs
  · intro q u hq hu
    have hVq : (matVec V q).length = n := by rw [length_matVec, hV]
    refine ⟨_, _, applyV_eq o F r m hFF q u hq hu, applyV_eq o E n m hF _ u hVq hu, ?_, ?_⟩
    · rw [hFa q u hq hu, ← hPa q u hq hu, ← matVec_matMul P.ncols (gram r W V) Y.rows _
        (by rw [← hYc]; exact hYw.2), hYs]
      exact matVec_matMul _ _ _ _ hPw.2
    · intro hI
      rw [hFa q u hq hu, ← hPa q u hq hu, hYI hI]
      exact matVec_matMul _ _ _ _ hPw.2

/-- **C06, error branches.** A test basis with the wrong number of rows, or bases with different
numbers of columns, are rejected, and a failing solve is passed on. -/
theorem C06_galerkin_errors [Field K] [DecidableEq K]
    (solve : List (List K) → Mat K → Except Err (Mat K)) (o : OpKind) (E : Mat K)
    (rV r : Nat) (V W : List (List K)) (h : E.nrows ≠ W.length ∨ rV ≠ r) :
    o.galerkin solve E rV r V W = .error .dimensionality := by
  unfold OpKind.galerkin
  rcases h with h | h
  · rw [if_pos h]
  · by_cases h2 : E.nrows ≠ W.length
    · rw [if_pos h2]
    · rw [if_neg h2, if_pos h]

-- a quadratic operator in dimension 2, projected with `V = (1, 2)ᵀ`, `W = (3, -1)ᵀ`: `WᵀV = 1`
example : gram 1 [[3], [-1]] [[1], [2]] = eye (K := ℚ) 1 := by decide +kernel
example : (OpKind.kron .quad).galerkin (fun _ _ => .error .linalg)
    (⟨2, 3, [[1, 2, 3], [4, 5, 6]]⟩ : Mat ℚ) 1 1 [[1], [2]] [[3], [-1]] = .ok ⟨1, 1, [[13]]⟩ := by
  decide +kernel
-- `SolvesExactly` is satisfiable: a diagonal system, solved by division
example : SolvesExactly (fun _ X : _ => (.ok ⟨X.nrows, X.ncols, X.rows.map (vsmul (1 / 2))⟩ :
    Except Err (Mat ℚ))) [[2]] 1 := by
  intro X hX hr
  obtain ⟨row, hrow⟩ := length_eq_one_iff.mp (hX.1.trans hr)
  refine ⟨_, rfl, ⟨by simpa using hX.1, ?_⟩, hr, rfl, ?_⟩
  · intro row' h'
    simp only [mem_map] at h'
    obtain ⟨x, hx, rfl⟩ := h'
    rw [length_vsmul]; exact hX.2 x hx
  · have hl := hX.2 row (by rw [hrow]; simp)
    rw [← hl, hrow]
    simp only [matMul, vecMat, map_cons, map_nil, zipWith_cons_cons, zipWith_nil_left, foldl_cons,
      foldl_nil]
    congr 1
    clear hrow hl
    induction row with
    | nil => rfl
    | cons x row ih =>
      simp only [vadd, vsmul, map_cons, length_cons, replicate_succ, zipWith_cons_cons] at ih ⊢
      rw [ih]
      congr 1
      ring

end Opinf
