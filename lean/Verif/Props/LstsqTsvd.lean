import Verif.Props.LstsqL2

/-!
# C26: `TruncatedSVDSolver`
-/

namespace Opinf

open List

variable {K : Type}

/-! ### The truncated decomposition -/

/-- The decomposition consisting of the `c` leading modes of `u`. -/
def truncSvd (u : Svd K) (c : Nat) : Svd K :=
  ⟨⟨u.Phi.nrows, c, u.Phi.rows.map (take c)⟩, u.s.take c, ⟨c, u.PsiT.ncols, u.PsiT.rows.take c⟩⟩

/-- The matrix `Σ_{j < c} s_j φ_j ψ_jᵀ`: the rank-`c` truncation of the decomposed matrix. -/
def truncMat [Semiring K] (u : Svd K) (c : Nat) : Mat K :=
  ⟨u.Phi.nrows, u.PsiT.ncols, u.Phi.rows.map fun φ =>
    vecMat u.PsiT.ncols (zipWith (· * ·) (φ.take c) (u.s.take c)) (u.PsiT.rows.take c)⟩

theorem dot_comm_replicate [Semiring K] (a : List K) (n : Nat) : dot a (replicate n 0) = 0 := by
  induction a generalizing n with
  | nil => simp
  | cons x a ih =>
    cases n with
    | zero => simp
    | succ n =>
      have := ih n
      simp only [dot, replicate_succ, zipWith_cons_cons, sum_cons, mul_zero, zero_add] at this ⊢
      exact this

theorem dot_take_left [Semiring K] (a v : List K) (c n : Nat) (hv : v.length = c) :
    dot (a.take c) v = dot a (v ++ replicate n 0) := by
  subst hv
  induction a generalizing v with
  | nil => simp
  | cons x a ih =>
    cases v with
    | nil =>
      rw [length_nil, take_zero, dot_nil_left, nil_append, dot_comm_replicate]
    | cons y v =>
      simp only [length_cons, take_succ_cons, cons_append]
      simp only [dot, zipWith_cons_cons, sum_cons] at ih ⊢
      rw [ih v]

theorem dot_mul_assoc [CommSemiring K] (a b c : List K) :
    dot (zipWith (· * ·) a b) c = dot a (zipWith (· * ·) b c) := by
  induction a generalizing b c with
  | nil => simp
  | cons x a ih =>
    cases b with
    | nil => simp
    | cons y b =>
      cases c with
      | nil => simp
      | cons z c =>
        have := ih b c
        simp only [dot, zipWith_cons_cons, sum_cons] at this ⊢
        rw [this, mul_assoc]

/-- `vᵀ M[:c] = [v; 0]ᵀ M`. -/
theorem vecMat_take [CommSemiring K] (d c n : Nat) (v : List K) (M : List (List K)) (hv : v.length = c)
    (hM : ∀ a ∈ M, a.length = d) :
    vecMat d v (M.take c) = vecMat d (v ++ replicate n 0) M := by
  have hM' : ∀ a ∈ M.take c, a.length = d := fun a ha => hM a (mem_of_mem_take ha)
  apply ext_getElem
  · rw [length_vecMat _ _ _ hM, length_vecMat _ _ _ hM']
  · intro j h1 h2
    have hj : j < d := by rwa [length_vecMat _ _ _ hM] at h2
    have e1 := dot_unit d j _ (length_vecMat d v (M.take c) hM') hj
    have e2 := dot_unit d j _ (length_vecMat d (v ++ replicate n 0) M hM) hj
    rw [getD_eq_getElem?_getD, getElem?_eq_getElem h1, Option.getD_some] at e1
    rw [getD_eq_getElem?_getD, getElem?_eq_getElem h2, Option.getD_some] at e2
    rw [← e1, ← e2, dot_vecMat _ _ _ _ hM, dot_vecMat _ _ _ _ hM', dot_comm', dot_comm' _ (matVec M _)]
    rw [← dot_take_left _ v c n hv]
    simp only [matVec, map_take]

theorem truncSvd_isSVD [CommRing K] (D : Mat K) (u : Svd K) (h : IsSVD D u) (c : Nat)
    (hc : c ≤ u.s.length) : IsSVD (truncMat u c) (truncSvd u c) := by
  have hsl : (u.s.take c).length = c := by simp [hc]
  have hPl : u.PsiT.rows.length = u.s.length := h.psiWF.1.trans h.psiRows
  have hphi : ∀ v : List K, v.length = c →
      matVec (u.Phi.rows.map (take c)) v = matVec u.Phi.rows (v ++ replicate (u.s.length - c) 0) := by
    intro v hv
    simp only [matVec, map_map]
    exact map_congr_left fun a _ => by
      rw [Function.comp_apply, dot_take_left a v c (u.s.length - c) hv]
  have hpad : ∀ v : List K, v.length = c → (v ++ replicate (u.s.length - c) 0).length = u.s.length := by
    intro v hv; simp [hv]; omega
  refine ⟨⟨by simp [truncSvd, h.phiWF.1], ?_⟩, ⟨by simp [truncSvd, hPl, hc], ?_⟩, rfl, hsl.symm,
    hsl.symm, rfl, ?_, ?_, ?_⟩
  · intro row hrow
    simp only [truncSvd, mem_map] at hrow
    obtain ⟨a, ha, rfl⟩ := hrow
    simp [truncSvd, h.phiWF.2 a ha, h.phiCols, hc]
  · intro row hrow
    exact h.psiWF.2 row (mem_of_mem_take hrow)
  · intro x _
    simp only [truncMat, truncSvd, matVec, map_map]
    apply map_congr_left
    intro a _
    rw [Function.comp_apply, Function.comp_apply, dot_vecMat _ _ _ _
      (fun a ha => h.psiWF.2 a (mem_of_mem_take ha)), dot_mul_assoc]
    rfl
  · intro v w hv hw
    simp only [truncSvd, hsl] at hv hw
    simp only [truncSvd, hphi v hv, hphi w hw, h.orthPhi _ _ (hpad v hv) (hpad w hw)]
    rw [← dot_take_left _ w c _ hw]
    simp [hv]
  · intro v hv
    simp only [truncSvd, hsl] at hv
    have e := h.orthPsi _ (hpad v hv)
    simp only [truncSvd]
    rw [vecMat_take u.PsiT.ncols c (u.s.length - c) v _ hv h.psiWF.2]
    have : matVec (u.PsiT.rows.take c) (vecMat u.PsiT.ncols (v ++ replicate (u.s.length - c) 0)
        u.PsiT.rows) = (matVec u.PsiT.rows (vecMat u.PsiT.ncols (v ++ replicate (u.s.length - c) 0)
        u.PsiT.rows)).take c := by simp only [matVec, map_take]
    rw [this, e]
    simp [← hv]

theorem truncMat_wf [CommRing K] (D : Mat K) (u : Svd K) (h : IsSVD D u) (c : Nat) :
    (truncMat u c).WF := by
  refine ⟨by simp [truncMat, h.phiWF.1], ?_⟩
  intro row hrow
  simp only [truncMat, mem_map] at hrow
  obtain ⟨a, _, rfl⟩ := hrow
  exact length_vecMat _ _ _ (fun a ha => h.psiWF.2 a (mem_of_mem_take ha))

/-- With all modes the truncated matrix is the decomposed matrix. -/
theorem truncMat_all [CommRing K] (D : Mat K) (u : Svd K) (h : IsSVD D u) (x : List K)
    (hx : x.length = D.ncols) : matVec (truncMat u u.s.length).rows x = matVec D.rows x := by
  rw [(truncSvd_isSVD D u h u.s.length le_rfl).recon x (hx.trans h.psiCols.symm), h.recon x hx]
  have e1 : u.Phi.rows.map (take u.s.length) = u.Phi.rows := by
    conv_rhs => rw [← map_id u.Phi.rows]
    apply map_congr_left
    intro a ha
    rw [take_of_length_le, id]
    rw [h.phiWF.2 a ha, h.phiCols]
  have e2 : u.PsiT.rows.take u.s.length = u.PsiT.rows := take_of_length_le
    (by rw [h.psiWF.1, h.psiRows])
  simp only [truncSvd, e1, e2, take_length]

section

variable [Field K]

/-- The rows stored by `fit` and used by `solve` are the spectral solution of the truncation. -/
theorem tsvdRow_eq (u : Svd K) (c : Nat) (zp : List K) (zq : Mat K) (h0 : ∀ x ∈ u.s.take c, x ≠ 0)
    (hPl : u.PsiT.rows.length = u.s.length) (hPsi : ∀ a ∈ u.PsiT.rows, a.length = u.PsiT.ncols) :
    vecMat u.PsiT.ncols (zp.take c)
      ((zipWith (fun x row => row.map (· / x)) u.s u.PsiT.rows).take c) =
    l2Row ⟨u.s.take c, zq, ⟨c, u.PsiT.ncols, u.PsiT.rows.take c⟩⟩ 0 (zp.take c) := by
  rw [take_zipWith, l2Row]
  have hPsi' : ∀ a ∈ u.PsiT.rows.take c, a.length = u.PsiT.ncols :=
    fun a ha => hPsi a (mem_of_mem_take ha)
  have hPl' : (u.PsiT.rows.take c).length = (u.s.take c).length := by simp [hPl]
  generalize u.s.take c = s at *
  generalize u.PsiT.rows.take c = P at *
  generalize zp.take c = z
  generalize u.PsiT.ncols = d at *
  have hrows : ∀ a ∈ zipWith (fun x row => row.map (· / x)) s P, a.length = d := by
    intro a ha
    rw [mem_iff_getElem] at ha
    obtain ⟨i, hi, rfl⟩ := ha
    simp only [length_zipWith] at hi
    simp [hPsi' _ (getElem_mem (show i < P.length by omega))]
  apply ext_getElem
  · rw [length_vecMat _ _ _ hrows, length_vecMat _ _ _ hPsi']
  · intro j h1 h2
    have hj : j < d := by rwa [length_vecMat _ _ _ hrows] at h1
    have e1 := dot_unit d j _ (length_vecMat d z _ hrows) hj
    have e2 := dot_unit d j _ (length_vecMat d
      (zipWith (· * ·) z (s.map fun s => s / (s ^ 2 + 0 ^ 2))) P hPsi') hj
    rw [getD_eq_getElem?_getD, getElem?_eq_getElem h1, Option.getD_some] at e1
    rw [getD_eq_getElem?_getD, getElem?_eq_getElem h2, Option.getD_some] at e2
    rw [← e1, ← e2, dot_vecMat _ _ _ _ hrows, dot_vecMat _ _ _ _ hPsi', dot_mul_assoc]
    congr 1
    generalize (range d).map (fun i => if j = i then (1 : K) else 0) = w
    clear e1 e2 h1 h2 hrows hPsi'
    induction s generalizing P with
    | nil => simp [matVec]
    | cons x s ih =>
      cases P with
      | nil => simp at hPl'
      | cons p P =>
        simp only [zipWith_cons_cons, matVec, map_cons] at ih ⊢
        rw [ih (fun y hy => h0 y (by simp [hy])) P (by simpa using hPl')]
        congr 1
        have hx := h0 x (by simp)
        have : p.map (· / x) = vsmul x⁻¹ p := by
          simp only [vsmul]; exact map_congr_left fun a _ => by ring
        rw [this, dot_vsmul_left]
        field_simp
        simp [zero_pow, mul_comm]

end

/-! ### C26 -/

/-- The number of modes that `num_svdmodes = n` is documented to keep out of `k`. -/
def modesKept (k : Nat) : Option Int → Nat
  | none => k
  | some n => if n ≤ 0 then k - n.natAbs else min n.toNat k

theorem Tsvd.fit_ok [Field K] (svd : Mat K → Except Err (Svd K)) (s : Tsvd K) (D Z : Mat K)
    (hk : Z.ncols = D.nrows) (u : Svd K) (hu : svd D = .ok u) :
    ∃ n : Int, s.fit svd (.mat D) (.mat Z) = (⟨some n, some (D, Z), some ⟨u.s, Z.mul u.Phi,
        ⟨u.PsiT.nrows, u.PsiT.ncols, zipWith (fun x row => row.map (· / x)) u.s u.PsiT.rows⟩⟩⟩,
        .ok ()) ∧
      n = (let m := s.nmodes.getD u.Phi.ncols
        let m := if m ≤ 0 then (u.Phi.ncols : Int) + m else m
        if m > u.Phi.ncols then (u.Phi.ncols : Int) else m) := by
  refine ⟨_, ?_, rfl⟩
  simp only [Tsvd.fit, templateFit_mat D Z hk, hu]
  rfl

/-- What `solve()` must return with `c` modes: NaN/Inf if a retained singular value is zero, otherwise
row by row the least-norm minimiser of `‖D_c o − z‖²` with the rank-`c` truncation `D_c`. -/
def TsvdSpec [Field K] [LinearOrder K] [IsStrictOrderedRing K] (u : Svd K) (c : Nat) (Z : Mat K)
    (out : Except Err (Mat K)) : Prop :=
  ((0 : K) ∈ u.s.take c → out = .error .nonfinite) ∧
  ((0 : K) ∉ u.s.take c → ∃ O : Mat K, out = .ok O ∧ O.WF ∧ O.nrows = Z.nrows ∧
    O.ncols = u.PsiT.ncols ∧ Forall₂ (L2RowSpec (truncMat u c) 0) Z.rows O.rows)

section

variable [Field K] [LinearOrder K] [IsStrictOrderedRing K]

theorem tsvd_solve_spec (D Z : Mat K) (hZ : Z.WF) (hk : Z.ncols = D.nrows)
    (u : Svd K) (hsvd : IsSVD D u) (n : Int) (c : Nat) (hc : sliceTo u.s.length n = c)
    (hcl : c ≤ u.s.length) :
    TsvdSpec u c Z (Tsvd.solve ⟨some n, some (D, Z), some ⟨u.s, Z.mul u.Phi,
        ⟨u.PsiT.nrows, u.PsiT.ncols, zipWith (fun x row => row.map (· / x)) u.s u.PsiT.rows⟩⟩⟩) := by
  have hpc : sliceTo (Z.mul u.Phi).ncols n = c := by
    rw [show (Z.mul u.Phi).ncols = u.s.length from hsvd.phiCols, hc]
  have hPl : u.PsiT.rows.length = u.s.length := hsvd.psiWF.1.trans hsvd.psiRows
  constructor
  · intro h0
    simp only [Tsvd.solve, hpc]
    rw [if_pos]
    rw [any_eq_true]
    exact ⟨0, h0, by simp⟩
  · intro h0
    have h0' : ∀ x ∈ u.s.take c, x ≠ 0 := fun x hx h => h0 (h ▸ hx)
    have hif : ((u.s.take c).any fun x => decide (x = 0)) = false := by
      rw [any_eq_false]
      intro x hx
      simpa using h0' x hx
    refine ⟨⟨Z.nrows, u.PsiT.ncols, (Z.mul u.Phi).rows.map fun z => vecMat u.PsiT.ncols (z.take c)
      ((zipWith (fun x row => row.map (· / x)) u.s u.PsiT.rows).take c)⟩, ?_, ?_, rfl, rfl, ?_⟩
    · simp only [Tsvd.solve, hpc, hif]; rfl
    · refine ⟨by simp [Mat.mul, matMul, hZ.1], ?_⟩
      intro row hrow
      simp only [mem_map] at hrow
      obtain ⟨z, -, rfl⟩ := hrow
      rw [tsvdRow_eq u c z ⟨0, 0, []⟩ h0' hPl hsvd.psiWF.2]
      exact length_vecMat _ _ _ (fun a ha => hsvd.psiWF.2 a (mem_of_mem_take ha))
    · simp only [Mat.mul, matMul, map_map]
      rw [forall₂_map_right_iff]
      apply forall₂_same.mpr
      intro z hz
      have hzl : z.length = D.nrows := (hZ.2 z hz).trans hk
      rw [Function.comp_apply, tsvdRow_eq u c _ ⟨0, 0, []⟩ h0' hPl hsvd.psiWF.2]
      have ht := truncSvd_isSVD D u hsvd c hcl
      have e := l2Row_spec (truncMat u c) (truncMat_wf D u hsvd c) (truncSvd u c) ht 0 z
        (by rw [hzl, ← hsvd.phiRows]; rfl)
        (fun x hx => by have := h0' x hx; simpa using this) ⟨0, 0, []⟩
      have e2 : (vecMat u.Phi.ncols z u.Phi.rows).take c =
          vecMat c z (u.Phi.rows.map (take c)) := by
        have hr : ∀ a ∈ u.Phi.rows.map (take c), a.length = c := by
          intro a ha
          simp only [mem_map] at ha
          obtain ⟨b, hb, rfl⟩ := ha
          simp [hsvd.phiWF.2 b hb, hsvd.phiCols, hcl]
        apply ext_getElem
        · rw [length_take, length_vecMat _ _ _ hsvd.phiWF.2, length_vecMat _ _ _ hr, hsvd.phiCols]
          omega
        · intro j h1 h2
          have hj : j < c := by rwa [length_vecMat _ _ _ hr] at h2
          have hj' : j < u.Phi.ncols := by rw [hsvd.phiCols]; omega
          have e1 := dot_unit c j _ (length_vecMat c z _ hr) hj
          have e2 := dot_unit _ j _ (length_vecMat _ z _ hsvd.phiWF.2) hj'
          rw [getD_eq_getElem?_getD, getElem?_eq_getElem h2, Option.getD_some] at e1
          rw [getD_eq_getElem?_getD, getElem?_eq_getElem (by
            rw [length_vecMat _ _ _ hsvd.phiWF.2]; exact hj'), Option.getD_some] at e2
          rw [getElem_take, ← e1, ← e2, dot_vecMat _ _ _ _ hsvd.phiWF.2, dot_vecMat _ _ _ _ hr]
          congr 1
          simp only [matVec, map_map]
          apply map_congr_left
          intro a ha
          rw [Function.comp_apply, dot_unit _ j a (hsvd.phiWF.2 a ha) hj',
            dot_unit _ j (a.take c) (hr _ (mem_map_of_mem ha)) hj]
          simp [getD_eq_getElem?_getD, hj]
      rw [e2]
      exact e

/-- **C26** (part): `num_svdmodes` set before training. For `None`, for `n > 0`, and for
`n ≤ 0` with `|n| ≤ k`, `fit` keeps all, `min(n, k)`, and `k − |n|` modes of the `k` available ones,
and `solve` returns row by row the least-norm minimiser for the rank-truncated data matrix.
Missing from the full claim: `n < −k` (see `C26_excess_negative_modes`), and fits after the
first (see `C26_refit` and the two negations below). -/
theorem C26_truncated_solution_partial (svd : Mat K → Except Err (Svd K)) (s : Tsvd K) (D Z : Mat K)
    (hZ : Z.WF) (hk : Z.ncols = D.nrows) (u : Svd K) (hu : svd D = .ok u)
    (hsvd : IsSVD D u) (hn : ∀ m, s.nmodes = some m → -(u.s.length : Int) ≤ m) :
    ∃ s', s.fit svd (.mat D) (.mat Z) = (s', .ok ()) ∧
      s'.nmodes = some (modesKept u.s.length s.nmodes : Int) ∧
      modesKept u.s.length s.nmodes ≤ u.s.length ∧
      TsvdSpec u (modesKept u.s.length s.nmodes) Z s'.solve := by
  obtain ⟨n, e, hn'⟩ := Tsvd.fit_ok svd s D Z hk u hu
  rw [hsvd.phiCols] at hn'
  have hn2 : n = (modesKept u.s.length s.nmodes : Int) := by
    rw [hn']
    cases hs : s.nmodes with
    | none =>
      simp only [modesKept, Option.getD_none]
      split_ifs <;> omega
    | some m =>
      have := hn m hs
      simp only [modesKept, Option.getD_some]
      split_ifs <;> omega
  have hle : modesKept u.s.length s.nmodes ≤ u.s.length := by
    cases s.nmodes with
    | none => exact le_rfl
    | some m => simp only [modesKept]; split_ifs <;> omega
  refine ⟨_, e, by rw [hn2], hle, ?_⟩
  refine tsvd_solve_spec D Z hZ hk u hsvd n _ ?_ hle
  rw [hn2, sliceTo, if_neg (by omega), Int.toNat_natCast, min_eq_left hle]

/-- **C26** (code behaviour for `n < −k`): the number of modes becomes negative and the slices `[:n]`
count from the end, so that `2k − |n|` modes (not zero, and no error) are used. -/
theorem C26_excess_negative_modes (svd : Mat K → Except Err (Svd K)) (s : Tsvd K) (D Z : Mat K)
    (hZ : Z.WF) (hk : Z.ncols = D.nrows) (u : Svd K) (hu : svd D = .ok u)
    (hsvd : IsSVD D u) (m : Int) (hm : s.nmodes = some m) (hlt : m < -(u.s.length : Int)) :
    ∃ s', s.fit svd (.mat D) (.mat Z) = (s', .ok ()) ∧
      s'.nmodes = some (u.s.length + m) ∧ TsvdSpec u (2 * u.s.length - m.natAbs) Z s'.solve := by
  obtain ⟨n, e, hn'⟩ := Tsvd.fit_ok svd s D Z hk u hu
  rw [hsvd.phiCols, hm] at hn'
  have hn2 : n = u.s.length + m := by
    rw [hn']
    simp only [Option.getD_some]
    split_ifs <;> omega
  refine ⟨_, e, by rw [hn2], ?_⟩
  refine tsvd_solve_spec D Z hZ hk u hsvd n _ ?_ (by omega)
  rw [hn2, sliceTo, if_pos (by omega)]
  omega

/-- **C26** (every later fit): a solver that kept `c` modes keeps `min(c, k)` of the `k` modes of the
next data matrix — or all of them if `c = 0` — no matter what `num_svdmodes` was set to. -/
theorem C26_refit (svd : Mat K → Except Err (Svd K)) (s : Tsvd K) (c : Nat)
    (hs : s.nmodes = some (c : Int)) (D Z : Mat K)
    (hZ : Z.WF) (hk : Z.ncols = D.nrows) (u : Svd K) (hu : svd D = .ok u) (hsvd : IsSVD D u) :
    ∃ s', s.fit svd (.mat D) (.mat Z) = (s', .ok ()) ∧
      s'.nmodes = some ((if c = 0 then u.s.length else min c u.s.length : Nat) : Int) ∧
      TsvdSpec u (if c = 0 then u.s.length else min c u.s.length) Z s'.solve := by
  obtain ⟨s', h1, h2, h3, h4⟩ := C26_truncated_solution_partial svd s D Z hZ hk u hu hsvd
    (fun m hm => by rw [hs] at hm; injection hm; omega)
  have e : modesKept u.s.length s.nmodes = if c = 0 then u.s.length else min c u.s.length := by
    rw [hs]; simp only [modesKept]; split_ifs <;> omega
  exact ⟨s', h1, by rw [h2, e], e ▸ h4⟩

end

/-! ### Witnesses -/

def exTall1 : Mat Rat := ⟨2, 1, [[3], [4]]⟩
def exTall2 : Mat Rat := ⟨2, 2, [[2, 0], [0, 1]]⟩
def exU1 : Svd Rat := ⟨⟨2, 1, [[3/5], [4/5]]⟩, [5], ⟨1, 1, [[1]]⟩⟩
def exU2 : Svd Rat := ⟨⟨2, 2, [[1, 0], [0, 1]]⟩, [2, 1], ⟨2, 2, [[1, 0], [0, 1]]⟩⟩
def exSvd2 (D : Mat Rat) : Except Err (Svd Rat) :=
  if D = exTall1 then .ok exU1 else if D = exTall2 then .ok exU2 else .error .linalg
def exRhs : Mat Rat := ⟨1, 2, [[1, 1]]⟩

theorem exU2_isSVD : IsSVD exTall2 exU2 := by
  refine ⟨by decide +kernel, by decide +kernel, rfl, rfl, rfl, rfl, ?_, ?_, ?_⟩
  · intro x hx
    match x, hx with
    | [a, b], _ => simp [exTall2, exU2, matVec, dot]
  · intro v w hv hw
    match v, w, hv, hw with
    | [a, b], [c, d], _, _ => simp [exU2, matVec, dot]
  · intro v hv
    match v, hv with
    | [a, b], _ => simp [exU2, matVec, dot, vecMat, vsmul, vadd]

theorem exU1_isSVD : IsSVD exTall1 exU1 := by
  refine ⟨by decide +kernel, by decide +kernel, rfl, rfl, rfl, rfl, ?_, ?_, ?_⟩
  · intro x hx
    match x, hx with
    | [a], _ => simp [exTall1, exU1, matVec, dot]; constructor <;> ring
  · intro v w hv hw
    match v, w, hv, hw with
    | [a], [c], _, _ => simp [exU1, matVec, dot]; ring
  · intro v hv
    match v, hv with
    | [a], _ => simp [exU1, matVec, dot, vecMat, vsmul, vadd]

/-- **C26** (negation of "every fit"): with `num_svdmodes=None`, a second fit to a wider data matrix
keeps only the single mode of the first one, although all two are documented to be kept. -/
theorem C26_second_fit_loses_modes :
    let s0 : Tsvd Rat := ⟨none, none, none⟩
    let s1 := (s0.fit exSvd2 (.mat exTall1) (.mat exRhs)).1
    let out := s1.fit exSvd2 (.mat exTall2) (.mat exRhs)
    out.2 = .ok () ∧ out.1.nmodes = some 1 ∧ modesKept exU2.s.length s0.nmodes = 2 ∧
    out.1.solve = .ok ⟨1, 2, [[1/2, 0]]⟩ ∧
    (s0.fit exSvd2 (.mat exTall2) (.mat exRhs)).1.solve = .ok ⟨1, 2, [[1/2, 1]]⟩ := by
  decide +kernel

/-- **C26** (negation): with `num_svdmodes=-2` and two modes, the first fit keeps none of them and a
second fit to the same data keeps both. -/
theorem C26_second_fit_regains_modes :
    let s0 : Tsvd Rat := ⟨some (-2), none, none⟩
    let s1 := (s0.fit exSvd2 (.mat exTall2) (.mat exRhs)).1
    let s2 := (s1.fit exSvd2 (.mat exTall2) (.mat exRhs)).1
    s1.solve = .ok ⟨1, 2, [[0, 0]]⟩ ∧ s2.solve = .ok ⟨1, 2, [[1/2, 1]]⟩ := by
  decide +kernel

/-- **C26** (negation): `num_svdmodes=-3` with two modes keeps one mode, where fewer than none are documented. -/
theorem C26_excess_negative_witness :
    ((⟨some (-3), none, none⟩ : Tsvd Rat).fit exSvd2 (.mat exTall2) (.mat exRhs)).1.solve =
      .ok ⟨1, 2, [[1/2, 0]]⟩ := by
  decide +kernel

/-- Non-vacuity: one retained mode out of two. -/
example : ∃ s', (⟨some 1, none, none⟩ : Tsvd Rat).fit exSvd2 (.mat exTall2) (.mat exRhs) = (s', .ok ()) ∧
    TsvdSpec exU2 1 exRhs s'.solve := by
  obtain ⟨s', h1, -, -, h4⟩ := C26_truncated_solution_partial exSvd2 ⟨some 1, none, none⟩ exTall2 exRhs
    (by decide +kernel) rfl exU2 (by decide +kernel) exU2_isSVD (by
      intro m hm
      simp only [Option.some.injEq] at hm
      subst hm
      decide)
  exact ⟨s', h1, h4⟩

/-! ### Setting the number of modes of a trained solver -/

/-- **C26** (setter): on a trained solver with `k` available modes, `num_svdmodes = n` keeps all modes
for `None`, `k − |n|` for `n ≤ 0` (if `|n| ≤ k`), `n` for `0 < n ≤ k`, and rejects `n > k` leaving the
solver unchanged. -/
theorem C26_set_modes (s : Tsvd K) (x : Mat K × Mat K) (p : L2Pre K) (hx : s.data = some x)
    (hp : s.pre = some p) (n : Option Int) :
    ((∀ m, n = some m → m ≤ p.ZPhi.ncols ∧ -(p.ZPhi.ncols : Int) ≤ m) →
      s.setModes n = ({ s with nmodes := some (modesKept p.ZPhi.ncols n : Int) }, .ok ())) ∧
    (∀ m, n = some m → (p.ZPhi.ncols : Int) < m → s.setModes n = (s, .error .value)) := by
  constructor
  · intro h
    cases n with
    | none => simp only [Tsvd.setModes, hx, hp, modesKept]
    | some m =>
      obtain ⟨h1, h2⟩ := h m rfl
      simp only [Tsvd.setModes, hx, hp, modesKept]
      rw [if_neg (by split_ifs <;> omega)]
      congr 3
      split_ifs <;> omega
  · rintro m rfl h
    simp only [Tsvd.setModes, hx, hp]
    rw [if_pos (by split_ifs <;> omega)]

example : ((⟨some 2, some (exTall2, exRhs), some ⟨[2, 1], ⟨1, 2, [[1, 1]]⟩, exU2.PsiT⟩⟩ : Tsvd Rat).setModes
    (some (-1))).1.nmodes = some 1 := by decide +kernel

end Opinf
