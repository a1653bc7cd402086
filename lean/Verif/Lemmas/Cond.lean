import Verif.Model.Cond
import Verif.Props.Total
import Mathlib.LinearAlgebra.FiniteDimensional.Lemmas

/-! Helper lemmas about singular values and the norms `‖A x‖`. -/

namespace Opinf

open List

variable {K : Type}

/-- `∑ aᵢ yᵢ²`. -/
def wsq [Semiring K] (a y : List K) : K := (zipWith (fun a y => a * y ^ 2) a y).sum

theorem wsq_cons [Semiring K] (a y : K) (as ys : List K) :
    wsq (a :: as) (y :: ys) = a * y ^ 2 + wsq as ys := by simp [wsq]

theorem sumSq_cons [Semiring K] (y : K) (ys : List K) : sumSq (y :: ys) = y ^ 2 + sumSq ys := by simp [sumSq]

theorem wsq_append [Semiring K] (a b y z : List K) (h : a.length = y.length) :
    wsq (a ++ b) (y ++ z) = wsq a y + wsq b z := by
  rw [wsq, zipWith_append h, sum_append]; rfl

theorem wsq_zeros [Semiring K] (a : List K) (n : Nat) : wsq a (replicate n 0) = 0 := by
  induction a generalizing n with
  | nil => simp [wsq]
  | cons x a ih =>
    cases n with
    | zero => simp [wsq]
    | succ n => rw [replicate_succ, wsq_cons, ih]; simp

/-- The squared norm after scaling the entries. -/
theorem sumSq_scaled [CommSemiring K] (s y : List K) :
    sumSq (zipWith (· * ·) s y) = wsq (s.map (· ^ 2)) y := by
  induction s generalizing y with
  | nil => simp [wsq, sumSq]
  | cons a s ih =>
    cases y with
    | nil => simp [wsq, sumSq]
    | cons b y => rw [zipWith_cons_cons, sumSq_cons, map_cons, wsq_cons, ih]; ring

theorem wsq_shift [CommSemiring K] (c : K) (a y : List K) (h : a.length = y.length) :
    wsq (a.map (· + c)) y = wsq a y + c * sumSq y := by
  induction a generalizing y with
  | nil => cases y with
    | nil => simp [wsq, sumSq]
    | cons b y => cases h
  | cons x a ih =>
    cases y with
    | nil => cases h
    | cons b y => rw [map_cons, wsq_cons, wsq_cons, sumSq_cons, ih y (by simpa using h)]; ring

/-- A coordinate vector picks an entry. -/
theorem wsq_pick [Semiring K] (a : List K) (x : K) (hx : x ∈ a) :
    ∃ y : List K, y.length = a.length ∧ wsq a y = x ∧ sumSq y = 1 := by
  obtain ⟨l1, l2, rfl⟩ := append_of_mem hx
  refine ⟨replicate l1.length 0 ++ 1 :: replicate l2.length 0, by simp, ?_, ?_⟩
  · rw [wsq_append _ _ _ _ (by simp), wsq_zeros, wsq_cons, wsq_zeros]; simp
  · rw [sumSq_append, sumSq_replicate_zero, sumSq_cons, sumSq_replicate_zero]; simp

section Ordered

variable [Field K] [LinearOrder K] [IsStrictOrderedRing K]

theorem wsq_le (a y : List K) (M : K) (h : a.length = y.length) (hM : ∀ x ∈ a, x ≤ M) :
    wsq a y ≤ M * sumSq y := by
  induction a generalizing y with
  | nil => cases y with
    | nil => simp [wsq, sumSq]
    | cons b y => cases h
  | cons x a ih =>
    cases y with
    | nil => cases h
    | cons b y =>
      rw [wsq_cons, sumSq_cons]
      have h1 := ih y (by simpa using h) fun z hz => hM z (mem_cons_of_mem _ hz)
      have h2 := mul_le_mul_of_nonneg_right (hM x mem_cons_self) (sq_nonneg b)
      linarith [mul_add M (b ^ 2) (sumSq y)]

theorem le_wsq (a y : List K) (m : K) (h : a.length = y.length) (hm : ∀ x ∈ a, m ≤ x) :
    m * sumSq y ≤ wsq a y := by
  induction a generalizing y with
  | nil => cases y with
    | nil => simp [wsq, sumSq]
    | cons b y => cases h
  | cons x a ih =>
    cases y with
    | nil => cases h
    | cons b y =>
      rw [wsq_cons, sumSq_cons]
      have h1 := ih y (by simpa using h) fun z hz => hm z (mem_cons_of_mem _ hz)
      have h2 := mul_le_mul_of_nonneg_right (hm x mem_cons_self) (sq_nonneg b)
      linarith [mul_add m (b ^ 2) (sumSq y)]

end Ordered

/-! ### Maxima and minima -/

section Extrema

variable [LinearOrder K]

theorem foldl_max_spec (xs : List K) (x : K) :
    xs.foldl max x ∈ x :: xs ∧ ∀ y ∈ x :: xs, y ≤ xs.foldl max x := by
  induction xs generalizing x with
  | nil => simp
  | cons z xs ih =>
    obtain ⟨h1, h2⟩ := ih (max x z)
    refine ⟨?_, ?_⟩
    · rw [foldl_cons]
      rcases mem_cons.1 h1 with h | h
      · rw [h]
        rcases max_choice x z with h' | h' <;> rw [h'] <;> simp
      · exact mem_cons_of_mem _ (mem_cons_of_mem _ h)
    · intro y hy
      rw [foldl_cons]
      have h3 := h2 _ mem_cons_self
      rcases mem_cons.1 hy with rfl | hy
      · exact (le_max_left _ _).trans h3
      · rcases mem_cons.1 hy with rfl | hy
        · exact (le_max_right _ _).trans h3
        · exact h2 y (mem_cons_of_mem _ hy)

theorem foldl_min_spec (xs : List K) (x : K) :
    xs.foldl min x ∈ x :: xs ∧ ∀ y ∈ x :: xs, xs.foldl min x ≤ y := by
  induction xs generalizing x with
  | nil => simp
  | cons z xs ih =>
    obtain ⟨h1, h2⟩ := ih (min x z)
    refine ⟨?_, ?_⟩
    · rw [foldl_cons]
      rcases mem_cons.1 h1 with h | h
      · rw [h]
        rcases min_choice x z with h' | h' <;> rw [h'] <;> simp
      · exact mem_cons_of_mem _ (mem_cons_of_mem _ h)
    · intro y hy
      rw [foldl_cons]
      have h3 := h2 _ mem_cons_self
      rcases mem_cons.1 hy with rfl | hy
      · exact h3.trans (min_le_left _ _)
      · rcases mem_cons.1 hy with rfl | hy
        · exact h3.trans (min_le_right _ _)
        · exact h2 y (mem_cons_of_mem _ hy)

/-- `x.max() / x.min()` of a nonempty array. -/
theorem spread_ok [Field K] (xs : List K) (h : xs ≠ []) :
    ∃ M m, spread xs = .ok (ratio M m) ∧ M ∈ xs ∧ m ∈ xs ∧ (∀ x ∈ xs, x ≤ M) ∧ ∀ x ∈ xs, m ≤ x := by
  cases xs with
  | nil => exact absurd rfl h
  | cons x xs =>
    obtain ⟨h1, h2⟩ := foldl_max_spec xs x
    obtain ⟨h3, h4⟩ := foldl_min_spec xs x
    exact ⟨xs.foldl max x, xs.foldl min x, rfl, h1, h3, h2, h4⟩

end Extrema

/-! ### Norms through a singular value decomposition -/

section Svd

variable [Field K]

theorem svd_norm {D : Mat K} {u : Svd K} (h : IsSVD D u) (x : List K) (hx : x.length = D.ncols) :
    sumSq (matVec D.rows x) = wsq (u.s.map (· ^ 2)) (matVec u.PsiT.rows x) := by
  have hl : (zipWith (· * ·) u.s (matVec u.PsiT.rows x)).length = u.s.length := by
    rw [length_zipWith, length_matVec, h.psiWF.1, h.psiRows, min_self]
  rw [h.recon x hx, sumSq_eq_dot, h.orthPhi _ _ hl hl, ← sumSq_eq_dot, sumSq_scaled]

/-- A combination of right singular vectors. -/
theorem svd_comb {D : Mat K} {u : Svd K} (h : IsSVD D u) (y : List K) (hy : y.length = u.s.length) :
    (vecMat D.ncols y u.PsiT.rows).length = D.ncols ∧
    matVec u.PsiT.rows (vecMat D.ncols y u.PsiT.rows) = y ∧
    sumSq (vecMat D.ncols y u.PsiT.rows) = sumSq y := by
  have hr : ∀ r ∈ u.PsiT.rows, r.length = D.ncols := fun r hr => by rw [h.psiWF.2 r hr, h.psiCols]
  have h1 := h.orthPsi y hy
  rw [h.psiCols] at h1
  refine ⟨length_vecMat _ _ _ hr, h1, ?_⟩
  rw [sumSq_eq_dot, dot_vecMat _ _ _ _ hr, h1, ← sumSq_eq_dot]

/-- A square `Ψ` preserves norms. -/
theorem svd_isometry {D : Mat K} {u : Svd K} (h : IsSVD D u) (hD : D.WF) (hs : u.s.length = D.ncols)
    (x : List K) (hx : x.length = D.ncols) : sumSq (matVec u.PsiT.rows x) = sumSq x := by
  obtain ⟨-, h2, -⟩ := svd_matrices D u h hD D.nrows D.ncols rfl rfl hs
  have h3 := mul_eq_one_comm.1 h2
  have q1 : u.PsiT.rows.length = D.ncols := by rw [h.psiWF.1, h.psiRows, hs]
  have q2 : ∀ a ∈ u.PsiT.rows, a.length = D.ncols := fun a ha => by rw [h.psiWF.2 a ha, h.psiCols]
  have e := toV_matVec D.ncols D.ncols u.PsiT.rows x q1 q2 hx
  have key : ∀ v : List K, v.length = D.ncols → sumSq v = dotProduct (toV D.ncols v) (toV D.ncols v) := by
    intro v hv
    rw [sumSq_eq_dot, dot_fin D.ncols v v hv hv]; rfl
  rw [key _ (by rw [length_matVec, q1]), key x hx, e, Matrix.dotProduct_mulVec, Matrix.vecMul_mulVec,
    ← Matrix.dotProduct_mulVec, h3]
  simp

variable [LinearOrder K] [IsStrictOrderedRing K]

/-- Bessel's inequality for the right singular vectors. -/
theorem svd_bessel {D : Mat K} {u : Svd K} (h : IsSVD D u) (x : List K) (hx : x.length = D.ncols) :
    sumSq (matVec u.PsiT.rows x) ≤ sumSq x := by
  have hr : ∀ r ∈ u.PsiT.rows, r.length = D.ncols := fun r hr => by rw [h.psiWF.2 r hr, h.psiCols]
  have hl : (matVec u.PsiT.rows x).length = u.s.length := by rw [length_matVec, h.psiWF.1, h.psiRows]
  obtain ⟨h1, -, h3⟩ := svd_comb h _ hl
  have h4 := sumSq_nonneg (vsub x (vecMat D.ncols (matVec u.PsiT.rows x) u.PsiT.rows))
  rw [sumSq_vsub _ _ (hx.trans h1.symm), h3, dot_comm', dot_vecMat _ _ _ _ hr, ← sumSq_eq_dot] at h4
  linarith

omit [LinearOrder K] [IsStrictOrderedRing K] in
/-- Fewer singular values than columns: some nonzero vector is orthogonal to all right singular vectors. -/
theorem svd_null {D : Mat K} {u : Svd K} (h : IsSVD D u) (hs : u.s.length < D.ncols) :
    ∃ x : List K, x.length = D.ncols ∧ x ≠ replicate D.ncols 0 ∧ ∀ y ∈ matVec u.PsiT.rows x, y = 0 := by
  have q1 : u.PsiT.rows.length = u.s.length := by rw [h.psiWF.1, h.psiRows]
  have q2 : ∀ a ∈ u.PsiT.rows, a.length = D.ncols := fun a ha => by rw [h.psiWF.2 a ha, h.psiCols]
  have hk := LinearMap.ker_ne_bot_of_finrank_lt
    (f := Matrix.mulVecLin (toM u.s.length D.ncols u.PsiT.rows)) (by simpa using hs)
  obtain ⟨v, hv, hne⟩ := (Submodule.ne_bot_iff _).1 hk
  rw [LinearMap.mem_ker, Matrix.mulVecLin_apply] at hv
  refine ⟨ofFn v, by simp, ?_, ?_⟩
  · intro e
    apply hne
    funext i
    have := congrFun (toV_ofFn D.ncols v) i
    rw [← this, e, toV]
    rw [getD_eq_getElem _ _ (by simp), getElem_replicate]
    rfl
  · intro y hy
    have e := toV_matVec u.s.length D.ncols u.PsiT.rows (ofFn v) q1 q2 (by simp)
    rw [toV_ofFn, hv] at e
    obtain ⟨i, hi, rfl⟩ := mem_iff_getElem.1 hy
    have := congrFun e ⟨i, by rw [length_matVec, q1] at hi; exact hi⟩
    simp only [toV, Pi.zero_apply] at this
    rwa [getD_eq_getElem _ _ hi] at this

end Svd

end Opinf
