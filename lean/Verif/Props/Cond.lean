import Verif.Lemmas.Cond
import Verif.Props.LstsqTsvd
import Verif.Props.Post
import Mathlib.Algebra.Order.Ring.Rat

/-!
# C98: condition numbers reported by the least-squares solvers
-/

namespace Opinf

open List

variable {K : Type}

/-! ### Specification -/

/-- On the vectors with the property `P`, the quotient `q x / ‖x‖²` ranges between `m` and `M`, and both ends are
attained at nonzero vectors. -/
structure Extremes [Field K] [LinearOrder K] (P : List K → Prop) (q : List K → K) (M m : K) : Prop where
  upper : ∀ x, P x → q x ≤ M * sumSq x
  lower : ∀ x, P x → m * sumSq x ≤ q x
  top : ∃ x, P x ∧ sumSq x ≠ 0 ∧ q x = M * sumSq x
  bot : ∃ x, P x ∧ sumSq x ≠ 0 ∧ q x = m * sumSq x

/-- `‖A x‖²`. -/
def gain [Semiring K] (A : List (List K)) (x : List K) : K := sumSq (matVec A x)

/-- `v` is the condition number `max ‖A x‖ / min ‖A x‖` over unit vectors with the property `P`. The value is
infinite if `A` annihilates a nonzero vector; `nan` is only allowed if `A` vanishes. -/
def CondVal [Field K] [LinearOrder K] (P : List K → Prop) (A : List (List K)) : Val K → Prop
  | .num κ => 0 ≤ κ ∧ ∃ M m, 0 < m ∧ Extremes P (gain A) M m ∧ κ ^ 2 * m = M
  | .inf => ∃ x, P x ∧ sumSq x ≠ 0 ∧ gain A x = 0
  | .ninf => False
  | .nan => ∀ x, P x → gain A x = 0

/-- `v` is the 2-norm condition number of the matrix with the rows `A` and `n` columns. -/
def Cond2 [Field K] [LinearOrder K] (A : List (List K)) (n : Nat) : Val K → Prop :=
  CondVal (fun x => x.length = n) A

/-- The row space of a matrix. -/
def InRowSpace [Semiring K] (A : Mat K) (x : List K) : Prop :=
  ∃ z : List K, z.length = A.nrows ∧ x = vecMat A.ncols z A.rows

/-- The rows of `[Dᵀ λI]ᵀ`. -/
def padded [Semiring K] (D : Mat K) (reg : K) : List (List K) := D.rows ++ ((Mat.eye K D.ncols).smul reg).rows

/-- What `scipy.linalg.svd(A, full_matrices=False)` promises: a thin singular value decomposition with
`min(A.shape)` nonnegative singular values in decreasing order. -/
def ThinSvd [Field K] [LinearOrder K] (svd : Mat K → Except Err (Svd K)) : Prop :=
  ∀ A u, A.WF → svd A = .ok u →
    IsSVD A u ∧ u.s.length = min A.nrows A.ncols ∧ u.s.Pairwise (· ≥ ·) ∧ ∀ x ∈ u.s, 0 ≤ x

/-- What `np.linalg.cond(A)` promises for a tall `A` with at least one column. -/
def NpCond [Field K] [LinearOrder K] (cond : Mat K → Except Err (Val K)) : Prop :=
  ∀ A, A.WF → 0 < A.ncols → A.ncols ≤ A.nrows → ∃ v, cond A = .ok v ∧ Cond2 A.rows A.ncols v ∧ v ≠ .nan

section

variable [Field K] [LinearOrder K] [IsStrictOrderedRing K]

/-! ### The specification determines finite values -/

theorem extremes_unique {P : List K → Prop} {q : List K → K} {M m M' m' : K}
    (h : Extremes P q M m) (h' : Extremes P q M' m') : M = M' ∧ m = m' := by
  have key : ∀ {a b : K} {x : List K}, sumSq x ≠ 0 → a * sumSq x ≤ b * sumSq x → a ≤ b := by
    intro a b x hx hab
    exact le_of_mul_le_mul_right hab (lt_of_le_of_ne (sumSq_nonneg x) (Ne.symm hx))
  obtain ⟨x1, p1, n1, e1⟩ := h.top
  obtain ⟨x2, p2, n2, e2⟩ := h'.top
  obtain ⟨x3, p3, n3, e3⟩ := h.bot
  obtain ⟨x4, p4, n4, e4⟩ := h'.bot
  refine ⟨le_antisymm (key n1 (e1 ▸ h'.upper x1 p1)) (key n2 (e2 ▸ h.upper x2 p2)),
    le_antisymm (key n4 (e4 ▸ h.lower x4 p4)) (key n3 (e3 ▸ h'.lower x3 p3))⟩

/-- **C98** (the specification): a finite condition number is the only value meeting the specification. -/
theorem C98_unique {P : List K → Prop} {A : List (List K)} {κ : K} {w : Val K}
    (h : CondVal P A (.num κ)) (hw : CondVal P A w) : w = .num κ := by
  obtain ⟨h0, M, m, hm, hE, hk⟩ := h
  cases w with
  | num κ' =>
    obtain ⟨h0', M', m', _, hE', hk'⟩ := hw
    obtain ⟨rfl, rfl⟩ := extremes_unique hE hE'
    have : κ ^ 2 = κ' ^ 2 := mul_right_cancel₀ hm.ne' (hk.trans hk'.symm)
    rw [(sq_eq_sq₀ h0 h0').1 this]
  | inf =>
    obtain ⟨x, hx, hn, hg⟩ := hw
    have := hE.lower x hx
    rw [hg] at this
    exact absurd (mul_pos hm (lt_of_le_of_ne (sumSq_nonneg x) (Ne.symm hn))) (not_lt.2 this)
  | ninf => exact absurd hw id
  | nan =>
    obtain ⟨x, hx, hn, hg⟩ := hE.bot
    rw [hw x hx] at hg
    rcases mul_eq_zero.1 hg.symm with h1 | h1
    · exact absurd h1 hm.ne'
    · exact absurd h1 hn

/-! ### Condition numbers from singular values -/

theorem condVal_num {P : List K → Prop} {A : List (List K)} {M m : K} (hM : 0 ≤ M)
    (hm : 0 ≤ m) (h : Extremes P (gain A) (M ^ 2) (m ^ 2)) : CondVal P A (ratio M m) := by
  rw [ratio]
  split
  · rename_i h0
    split
    · rename_i h1
      intro x hx
      have := h.upper x hx
      rw [h1] at this
      exact le_antisymm (by simpa using this) (sumSq_nonneg _)
    · obtain ⟨x, hx, hn, hg⟩ := h.bot
      exact ⟨x, hx, hn, by rw [hg, h0]; simp⟩
  · rename_i h0
    have hm' : 0 < m := lt_of_le_of_ne hm (Ne.symm h0)
    exact ⟨div_nonneg hM hm, M ^ 2, m ^ 2, by positivity, h, by field_simp⟩

theorem condVal_sqrt {sqrt : K → K} (hs : SquareRoot sqrt) {P : List K → Prop}
    {A : List (List K)} {M m : K} (hM : 0 ≤ M) (hm : 0 ≤ m) (h : Extremes P (gain A) M m) :
    CondVal P A ((ratio M m).sqrt sqrt) := by
  rw [ratio]
  split
  · rename_i h0
    split
    · rename_i h1
      intro x hx
      have := h.upper x hx
      rw [h1] at this
      exact le_antisymm (by simpa using this) (sumSq_nonneg _)
    · obtain ⟨x, hx, hn, hg⟩ := h.bot
      exact ⟨x, hx, hn, by rw [hg, h0]; simp⟩
  · rename_i h0
    have hm' : 0 < m := lt_of_le_of_ne hm (Ne.symm h0)
    obtain ⟨h1, h2⟩ := hs (M / m) (div_nonneg hM hm)
    exact ⟨h1, M, m, hm', h, by rw [h2]; field_simp⟩

/-- The extremes of `‖D x‖² + c ‖x‖²` when there are as many singular values as columns. -/
theorem svd_extremes {D : Mat K} {u : Svd K} (h : IsSVD D u) (hD : D.WF) (hs : u.s.length = D.ncols) (c M m : K)
    (hM : M ∈ u.s.map fun x => x ^ 2 + c) (hm : m ∈ u.s.map fun x => x ^ 2 + c)
    (hMu : ∀ x ∈ u.s.map fun x => x ^ 2 + c, x ≤ M) (hml : ∀ x ∈ u.s.map fun x => x ^ 2 + c, m ≤ x) :
    Extremes (fun x => x.length = D.ncols) (fun x => gain D.rows x + c * sumSq x) M m := by
  have hl : ∀ x : List K, (matVec u.PsiT.rows x).length = u.s.length := fun x => by
    rw [length_matVec, h.psiWF.1, h.psiRows]
  have e : (u.s.map fun x => x ^ 2 + c) = (u.s.map (· ^ 2)).map (· + c) := by rw [map_map]; rfl
  have key : ∀ x : List K, x.length = D.ncols →
      gain D.rows x + c * sumSq x = wsq (u.s.map fun x => x ^ 2 + c) (matVec u.PsiT.rows x) := by
    intro x hx
    rw [gain, svd_norm h x hx, e, wsq_shift _ _ _ (by rw [length_map, hl]), svd_isometry h hD hs x hx]
  have att : ∀ a ∈ u.s.map fun x => x ^ 2 + c, ∃ x : List K, x.length = D.ncols ∧ sumSq x ≠ 0 ∧
      gain D.rows x + c * sumSq x = a * sumSq x := by
    intro a ha
    obtain ⟨y, hy, h1, h2⟩ := wsq_pick _ a ha
    rw [length_map] at hy
    obtain ⟨c1, c2, c3⟩ := svd_comb h y hy
    refine ⟨_, c1, ?_, ?_⟩
    · rw [c3, h2]; exact one_ne_zero
    · rw [key _ c1, c2, h1, c3, h2, mul_one]
  refine ⟨fun x hx => ?_, fun x hx => ?_, att M hM, att m hm⟩
  · rw [key x hx, ← svd_isometry h hD hs x hx]
    exact wsq_le _ _ _ (by rw [length_map, hl]) hMu
  · rw [key x hx, ← svd_isometry h hD hs x hx]
    exact le_wsq _ _ _ (by rw [length_map, hl]) hml

omit [LinearOrder K] [IsStrictOrderedRing K] in
theorem gain_padded (D : Mat K) (reg : K) (x : List K) (hx : x.length = D.ncols) :
    gain (padded D reg) x = gain D.rows x + reg ^ 2 * sumSq x := by
  have h : matVec ((Mat.eye K D.ncols).smul reg).rows x = vsmul reg x := by
    have : matVec ((eye D.ncols : List (List K)).map (vsmul reg)) x = vsmul reg (matVec (eye D.ncols) x) := by
      simp only [matVec, vsmul, map_map]
      refine map_congr_left fun a _ => ?_
      exact dot_vsmul_left reg a x
    simp only [Mat.smul, Mat.eye]
    rw [this, matVec_eye _ _ hx]
  rw [gain, padded, matVec_append, sumSq_append, h, sumSq_vsmul]
  rfl

theorem svd_cond {D : Mat K} {u : Svd K} (h : IsSVD D u) (hD : D.WF) (hs : u.s.length = D.ncols)
    (h0 : 0 < D.ncols) (hnn : ∀ x ∈ u.s, 0 ≤ x) : ∃ v, spread u.s = .ok v ∧ Cond2 D.rows D.ncols v := by
  obtain ⟨M, m, e, hM, hm, hMu, hml⟩ := spread_ok u.s (fun e => by rw [e] at hs; simp at hs; omega)
  refine ⟨_, e, condVal_num (hnn M hM) (hnn m hm) ?_⟩
  have := svd_extremes h hD hs 0 (M ^ 2) (m ^ 2) (mem_map.2 ⟨M, hM, by simp⟩) (mem_map.2 ⟨m, hm, by simp⟩)
    (by
      intro y hy
      obtain ⟨x, hx, rfl⟩ := mem_map.1 hy
      rw [add_zero]
      exact pow_le_pow_left₀ (hnn x hx) (hMu x hx) 2)
    (by
      intro y hy
      obtain ⟨x, hx, rfl⟩ := mem_map.1 hy
      rw [add_zero]
      exact pow_le_pow_left₀ (hnn m hm) (hml x hx) 2)
  simpa using this

theorem svd_regcond {sqrt : K → K} (hq : SquareRoot sqrt) {D : Mat K} {u : Svd K} (h : IsSVD D u) (hD : D.WF)
    (hs : u.s.length = D.ncols) (h0 : 0 < D.ncols) (reg : K) :
    ∃ v, regSpread sqrt u.s reg = .ok v ∧ Cond2 (padded D reg) D.ncols v := by
  obtain ⟨M, m, e, hM, hm, hMu, hml⟩ := spread_ok (u.s.map fun x => x ^ 2 + reg ^ 2)
    (fun e => by rw [map_eq_nil_iff] at e; rw [e] at hs; simp at hs; omega)
  refine ⟨(ratio M m).sqrt sqrt, by rw [regSpread, e]; rfl, ?_⟩
  have nn : ∀ a ∈ u.s.map fun x => x ^ 2 + reg ^ 2, 0 ≤ a := by
    intro a ha
    obtain ⟨x, -, rfl⟩ := mem_map.1 ha
    positivity
  refine condVal_sqrt hq (nn M hM) (nn m hm) ?_
  have hE := svd_extremes h hD hs (reg ^ 2) M m hM hm hMu hml
  refine ⟨fun x hx => ?_, fun x hx => ?_, ?_, ?_⟩
  · rw [gain_padded D reg x hx]; exact hE.upper x hx
  · rw [gain_padded D reg x hx]; exact hE.lower x hx
  · obtain ⟨x, hx, hn, hg⟩ := hE.top
    exact ⟨x, hx, hn, by rw [gain_padded D reg x hx]; exact hg⟩
  · obtain ⟨x, hx, hn, hg⟩ := hE.bot
    exact ⟨x, hx, hn, by rw [gain_padded D reg x hx]; exact hg⟩

/-! ### The L2 solvers -/

/-- **C98** (`L2Solver.cond()`, `L2DecoupledSolver.cond()`): with at least as many data points as unknowns, the
reported value is the condition number of the data matrix. -/
theorem C98_cond {R : Type} (svd : Mat K → Except Err (Svd K)) (hsvd : ThinSvd svd) (s : L2 R K)
    (hc : s.Cons svd) (D Z : Mat K) (hd : s.data = some (D, Z)) (hD : D.WF) (h0 : 0 < D.ncols)
    (hk : D.ncols ≤ D.nrows) : ∃ v, s.cond = .ok v ∧ Cond2 D.rows D.ncols v := by
  obtain ⟨-, u, hu, hp⟩ := hc D Z hd
  obtain ⟨hS, hl, -, hnn⟩ := hsvd D u hD hu
  obtain ⟨v, e, hv⟩ := svd_cond hS hD (hl.trans (min_eq_right hk)) h0 hnn
  exact ⟨v, by rw [L2.cond, hd, hp]; exact e, hv⟩

/-- **C98** (`L2Solver.regcond()`): with at least as many data points as unknowns, the reported value is the
condition number of `[Dᵀ λI]ᵀ`. -/
theorem C98_regcond {sqrt : K → K} (hq : SquareRoot sqrt) (svd : Mat K → Except Err (Svd K)) (hsvd : ThinSvd svd)
    (s : L2 K K) (hc : s.Cons svd) (D Z : Mat K) (hd : s.data = some (D, Z)) (reg : K) (hr : s.reg = some reg)
    (hD : D.WF) (h0 : 0 < D.ncols) (hk : D.ncols ≤ D.nrows) :
    ∃ v, s.regcond sqrt = .ok v ∧ Cond2 (padded D reg) D.ncols v := by
  obtain ⟨-, u, hu, hp⟩ := hc D Z hd
  obtain ⟨hS, hl, -, hnn⟩ := hsvd D u hD hu
  obtain ⟨v, e, hv⟩ := svd_regcond hq hS hD (hl.trans (min_eq_right hk)) h0 reg
  exact ⟨v, by rw [L2.regcond, hd, hr, hp]; exact e, hv⟩

/-- **C98** (`L2DecoupledSolver.regcond()`): one condition number for each regularizer, in order. -/
theorem C98_regcond_decoupled {sqrt : K → K} (hq : SquareRoot sqrt) (svd : Mat K → Except Err (Svd K))
    (hsvd : ThinSvd svd) (s : L2 (List K) K) (hc : s.Cons svd) (D Z : Mat K) (hd : s.data = some (D, Z))
    (regs : List K) (hr : s.reg = some regs) (hD : D.WF) (h0 : 0 < D.ncols) (hk : D.ncols ≤ D.nrows) :
    ∃ vs, s.regcondDec sqrt = .ok vs ∧ Forall₂ (fun reg v => Cond2 (padded D reg) D.ncols v) regs vs := by
  obtain ⟨-, u, hu, hp⟩ := hc D Z hd
  obtain ⟨hS, hl, -, hnn⟩ := hsvd D u hD hu
  have key : ∀ reg : K, ∃ v, regSpread sqrt u.s reg = .ok v ∧ Cond2 (padded D reg) D.ncols v := fun reg =>
    svd_regcond hq hS hD (hl.trans (min_eq_right hk)) h0 reg
  choose f hf using key
  refine ⟨regs.map f, ?_, ?_⟩
  · rw [L2.regcondDec, hd, hr, hp]
    have : regSpread sqrt u.s = fun reg => .ok (f reg) := funext fun reg => (hf reg).1
    change regs.mapM (regSpread sqrt u.s) = _
    rw [this]
    clear hr
    induction regs with
    | nil => rfl
    | cons x xs ih => rw [mapM_cons, ih]; rfl
  · rw [forall₂_map_right_iff, forall₂_same]
    exact fun reg _ => (hf reg).2

/-- **C98** (total least squares): if the augmented matrix has no singular values, then `fit()` raises `ValueError`
(numpy's maximum of an empty array) and no condition number is stored. -/
theorem C98_no_singular_values (svd : Mat K → Except Err (Svd K)) (solve : Mat K → Mat K → Except Err (Mat K)) (s : TlsC K)
    (D Z : NdArg K) (D' Z' : Mat K) (ht : templateFit D Z = .ok (D', Z')) (hk : D'.ncols + Z'.nrows ≤ D'.nrows) (u : Svd K)
    (hu : svd (augmented D' Z') = .ok u) (h0 : u.s = []) :
    (s.fit svd solve D Z).2 = .error .value ∧ (s.fit svd solve D Z).1.aug = s.aug := by
  have e : spread u.s = .error .value := by rw [h0]; rfl
  simp only [TlsC.fit, ht, hu, e, if_neg (Nat.not_lt.2 hk), and_self]

/-- **C98** (errors): before `fit()`, or without a regularizer, `AttributeError`. -/
theorem C98_untrained {R : Type} (sqrt : K → K) (cond : Mat K → Except Err (Val K)) :
    baseCond cond none = .error .attribute ∧
    (∀ s : L2 R K, s.data = none → s.cond = .error .attribute) ∧
    (∀ s : L2 K K, s.data = none ∨ s.reg = none → s.regcond sqrt = .error .attribute) ∧
    (∀ s : L2 (List K) K, s.data = none ∨ s.reg = none → s.regcondDec sqrt = .error .attribute) ∧
    (∀ s : Tik (Mat K) K, s.data = none ∨ s.reg = none → s.regcond cond = .error .attribute) ∧
    (∀ s : Tik (List (Mat K)) K, s.data = none ∨ s.reg = none → s.regcondDec cond = .error .attribute) ∧
    (∀ s : Tsvd K, s.data = none → s.tcond = .error .attribute) ∧
    (∀ s : TlsC K, s.tls.data = none → s.augcond = .error .attribute) := by
  refine ⟨rfl, fun s h => by rw [L2.cond, h], ?_, ?_, ?_, ?_, fun s h => by rw [Tsvd.tcond, h],
    fun s h => by rw [TlsC.augcond, h]⟩
  · rintro s (h | h)
    · rw [L2.regcond, h]
    · rw [L2.regcond, h]; cases s.data <;> rfl
  · rintro s (h | h)
    · rw [L2.regcondDec, h]
    · rw [L2.regcondDec, h]; cases s.data <;> rfl
  · rintro s (h | h)
    · rw [Tik.regcond, h]
    · rw [Tik.regcond, h]; cases s.data <;> rfl
  · rintro s (h | h)
    · rw [Tik.regcondDec, h]
    · rw [Tik.regcondDec, h]; cases s.data <;> rfl

/-! ### Underdetermined data -/

/-- The extremes of `‖[Dᵀ λI]ᵀ x‖` when there are fewer data points than unknowns: the smallest is `λ`. -/
theorem wide_extremes {D : Mat K} {u : Svd K} (h : IsSVD D u) (hs : u.s.length < D.ncols) (reg M : K)
    (hM : M ∈ u.s.map fun x => x ^ 2) (hMu : ∀ x ∈ u.s.map fun x => x ^ 2, x ≤ M) :
    Extremes (fun x => x.length = D.ncols) (gain (padded D reg)) (M + reg ^ 2) (reg ^ 2) := by
  have hl : ∀ x : List K, (matVec u.PsiT.rows x).length = u.s.length := fun x => by
    rw [length_matVec, h.psiWF.1, h.psiRows]
  have hM0 : 0 ≤ M := by
    obtain ⟨x, -, rfl⟩ := mem_map.1 hM
    positivity
  refine ⟨fun x hx => ?_, fun x hx => ?_, ?_, ?_⟩
  · rw [gain_padded D reg x hx, gain, svd_norm h x hx, add_mul]
    have h1 := wsq_le _ (matVec u.PsiT.rows x) M (by rw [length_map, hl]) hMu
    have h2 := mul_le_mul_of_nonneg_left (svd_bessel h x hx) hM0
    linarith
  · rw [gain_padded D reg x hx]
    have := sumSq_nonneg (matVec D.rows x)
    rw [gain]
    linarith
  · obtain ⟨y, hy, h1, h2⟩ := wsq_pick _ M hM
    rw [length_map] at hy
    obtain ⟨c1, c2, c3⟩ := svd_comb h y hy
    refine ⟨_, c1, by rw [c3, h2]; exact one_ne_zero, ?_⟩
    rw [gain_padded D reg _ c1, gain, svd_norm h _ c1, c2, h1, c3, h2, mul_one, mul_one]
  · obtain ⟨x, hx, hne, h0⟩ := svd_null h hs
    refine ⟨x, hx, fun e => hne ?_, ?_⟩
    · have := sumSq_eq_zero x e
      rwa [hx] at this
    · rw [gain_padded D reg x hx, gain, svd_norm h x hx]
      have : matVec u.PsiT.rows x = replicate u.s.length 0 := eq_replicate_iff.2 ⟨hl x, h0⟩
      rw [this, wsq_zeros, zero_add]

/-- **C98** (the defect): with fewer data points than unknowns, `regcond()` ignores the directions in which only
the regularization acts. The condition number of `[Dᵀ λI]ᵀ` exists, the reported value never exceeds it, and the
two agree only if the data matrix has a vanishing singular value. -/
theorem C98_regcond_wide_partial {sqrt : K → K} (hq : SquareRoot sqrt) (svd : Mat K → Except Err (Svd K))
    (hsvd : ThinSvd svd) (s : L2 K K) (hc : s.Cons svd) (D Z : Mat K) (hd : s.data = some (D, Z)) (reg : K)
    (hr : s.reg = some reg) (hpos : 0 < reg) (hD : D.WF) (h0 : 0 < D.nrows) (hk : D.nrows < D.ncols) :
    ∃ u κ κ', svd D = .ok u ∧ s.regcond sqrt = .ok (.num κ) ∧ Cond2 (padded D reg) D.ncols (.num κ') ∧
      κ ≤ κ' ∧ (κ = κ' ↔ 0 ∈ u.s) := by
  obtain ⟨-, u, hu, hp⟩ := hc D Z hd
  obtain ⟨hS, hl, -, hnn⟩ := hsvd D u hD hu
  rw [min_eq_left hk.le] at hl
  have hne : u.s ≠ [] := fun e => by rw [e] at hl; simp at hl; omega
  obtain ⟨M, m, e, hM, hm, hMu, hml⟩ := spread_ok (u.s.map fun x => x ^ 2 + reg ^ 2)
    (fun e => hne (map_eq_nil_iff.1 e))
  obtain ⟨M1, hM1, rfl⟩ := mem_map.1 hM
  obtain ⟨m1, hm1, rfl⟩ := mem_map.1 hm
  have hr2 : 0 < reg ^ 2 := by positivity
  have hm0 : 0 < m1 ^ 2 + reg ^ 2 := by positivity
  have hE := wide_extremes hS (hl ▸ hk) reg (M1 ^ 2) (mem_map.2 ⟨M1, hM1, rfl⟩) (by
    intro y hy
    obtain ⟨x, hx, rfl⟩ := mem_map.1 hy
    have := hMu _ (mem_map.2 ⟨x, hx, rfl⟩)
    linarith)
  obtain ⟨a1, a2⟩ := hq ((M1 ^ 2 + reg ^ 2) / (m1 ^ 2 + reg ^ 2)) (by positivity)
  obtain ⟨b1, b2⟩ := hq ((M1 ^ 2 + reg ^ 2) / reg ^ 2) (by positivity)
  refine ⟨u, sqrt ((M1 ^ 2 + reg ^ 2) / (m1 ^ 2 + reg ^ 2)), sqrt ((M1 ^ 2 + reg ^ 2) / reg ^ 2), hu, ?_,
    ⟨b1, M1 ^ 2 + reg ^ 2, reg ^ 2, hr2, hE, by rw [b2]; field_simp⟩, ?_, ?_⟩
  · rw [L2.regcond, hd, hr, hp]
    change regSpread sqrt u.s reg = _
    rw [regSpread, e]
    change Except.ok ((ratio _ _).sqrt sqrt) = _
    rw [ratio, if_neg hm0.ne']
    rfl
  · refine (sq_le_sq₀ a1 b1).1 ?_
    rw [a2, b2]
    apply div_le_div_of_nonneg_left (by positivity) hr2
    nlinarith [sq_nonneg m1]
  · rw [← sq_eq_sq₀ a1 b1, a2, b2, div_eq_div_iff hm0.ne' hr2.ne']
    have hN : M1 ^ 2 + reg ^ 2 ≠ 0 := by positivity
    constructor
    · intro h
      have h1 := mul_left_cancel₀ hN h
      have h2 : m1 ^ 2 = 0 := by linarith
      have h3 : m1 = 0 := by simpa using h2
      exact h3 ▸ hm1
    · intro h
      have h1 := hml _ (mem_map.2 ⟨0, h, rfl⟩)
      have h2 : m1 ^ 2 = 0 := le_antisymm (by linarith) (sq_nonneg _)
      rw [h2, zero_add]

/-! ### The Tikhonov solvers -/

omit [IsStrictOrderedRing K] in
theorem stackCond_ok {cond : Mat K → Except Err (Val K)} (hc : NpCond cond) {D G : Mat K} (hD : D.WF) (hG : G.WF)
    (h0 : 0 < D.ncols) (h1 : G.nrows = D.ncols) (h2 : G.ncols = D.ncols) :
    ∃ v, stackCond cond D G = .ok v ∧ Cond2 (D.rows ++ G.rows) D.ncols v ∧ v ≠ .nan := by
  have hW : (⟨D.nrows + G.nrows, D.ncols, D.rows ++ G.rows⟩ : Mat K).WF := by
    refine ⟨by rw [length_append, hD.1, hG.1], fun row hrow => ?_⟩
    rcases mem_append.1 hrow with h | h
    · exact hD.2 row h
    · exact (hG.2 row h).trans h2
  obtain ⟨v, e, hv⟩ := hc _ hW h0 (by simp only; omega)
  refine ⟨v, ?_, hv⟩
  rw [stackCond, Mat.vstack, if_pos h2.symm]
  exact e

omit [IsStrictOrderedRing K] in
/-- **C98** (`TikhonovSolver.regcond()`): the condition number of `[Dᵀ Γᵀ]ᵀ`, for every shape of the data. -/
theorem C98_tikhonov {cond : Mat K → Except Err (Val K)} (hc : NpCond cond) (s : Tik (Mat K) K) (D Z G : Mat K)
    (hd : s.data = some (D, Z)) (hr : s.reg = some G) (hD : D.WF) (hG : G.WF) (h0 : 0 < D.ncols)
    (h1 : G.nrows = D.ncols) (h2 : G.ncols = D.ncols) :
    ∃ v, s.regcond cond = .ok v ∧ Cond2 (D.rows ++ G.rows) D.ncols v ∧ v ≠ .nan := by
  obtain ⟨v, e, hv⟩ := stackCond_ok hc hD hG h0 h1 h2
  exact ⟨v, by rw [Tik.regcond, hd, hr]; exact e, hv⟩

omit [IsStrictOrderedRing K] in
/-- **C98** (`TikhonovDecoupledSolver.regcond()`). -/
theorem C98_tikhonov_decoupled {cond : Mat K → Except Err (Val K)} (hc : NpCond cond) (s : Tik (List (Mat K)) K)
    (D Z : Mat K) (Gs : List (Mat K)) (hd : s.data = some (D, Z)) (hr : s.reg = some Gs) (hD : D.WF)
    (h0 : 0 < D.ncols) (hG : ∀ G ∈ Gs, G.WF ∧ G.nrows = D.ncols ∧ G.ncols = D.ncols) :
    ∃ vs, s.regcondDec cond = .ok vs ∧
      Forall₂ (fun G v => Cond2 (D.rows ++ G.rows) D.ncols v ∧ v ≠ .nan) Gs vs := by
  have key : ∃ vs, Gs.mapM (stackCond cond D) = .ok vs ∧
      Forall₂ (fun G v => Cond2 (D.rows ++ G.rows) D.ncols v ∧ v ≠ .nan) Gs vs := by
    clear hr
    induction Gs with
    | nil => exact ⟨[], rfl, .nil⟩
    | cons G Gs ih =>
      obtain ⟨w, h1, h2⟩ := hG G mem_cons_self
      obtain ⟨v, e, hv⟩ := stackCond_ok hc hD w h0 h1 h2
      obtain ⟨vs, es, hvs⟩ := ih fun G hG' => hG G (mem_cons_of_mem _ hG')
      exact ⟨v :: vs, by rw [mapM_cons, e, es]; rfl, .cons hv hvs⟩
  obtain ⟨vs, e, hvs⟩ := key
  exact ⟨vs, by rw [Tik.regcondDec, hd, hr]; exact e, hvs⟩

end

end Opinf
