import Verif.Lemmas.PodCore
import Verif.Lemmas.Pod

/-!
# Weighting the states by the square root of the weights
-/

namespace Opinf

open List

variable {K : Type}

/-- The columns of a state array. -/
def columnsOf [Zero K] (Y : Snap K) : List (List K) := (range Y.width).map Y.column

theorem columnsOf_getD [Zero K] (Y : Snap K) (j : Nat) (hj : j < Y.width) : (columnsOf Y).getD j [] = Y.column j := by
  rw [columnsOf, getD_eq_getElem (map _ _) _ (by simpa using hj)]
  simp

theorem columnsOf_length [Zero K] (Y : Snap K) : (columnsOf Y).length = Y.width := by simp [columnsOf]

section
variable [Field K]

/-- The square root of the weights. -/
def rootW (ext : PodExt K) : Option (Weights K) → Option (Weights K)
  | none => none
  | some (.diag w) => some (.diag (w.map ext.sqrt))
  | some (.full A) => some (.full (ext.sqrtm A))

/-- The libraries compute what they promise for these weights: square roots of the diagonal weights; a symmetric square
root of a weight matrix, and solutions of linear systems with it. -/
def RootOf (ext : PodExt K) (n : Nat) : Option (Weights K) → Prop
  | none => True
  | some (.diag w) => w.length = n ∧ ∀ a ∈ w, ext.sqrt a * ext.sqrt a = a
  | some (.full A) => (A.nrows = n ∧ A.ncols = n ∧ A.WF) ∧
    ((ext.sqrtm A).nrows = n ∧ (ext.sqrtm A).ncols = n ∧ (ext.sqrtm A).WF) ∧
    (∀ x y : List K, x.length = n → y.length = n →
      dot x (matVec (ext.sqrtm A).rows y) = dot y (matVec (ext.sqrtm A).rows x)) ∧
    (∀ x : List K, x.length = n → matVec (ext.sqrtm A).rows (matVec (ext.sqrtm A).rows x) = matVec A.rows x) ∧
    ∀ v : List K, v.length = n → (ext.choSolve (ext.sqrtm A) v).length = n ∧
      matVec (ext.sqrtm A).rows (ext.choSolve (ext.sqrtm A) v) = v

theorem RootOf.fit {ext : PodExt K} {n : Nat} {W : Option (Weights K)} (h : RootOf ext n W) :
    weightsFit W n ∧ weightsFit (rootW ext W) n := by
  rcases W with _ | (w | A)
  · exact ⟨trivial, trivial⟩
  · exact ⟨h.1, by simp only [rootW, weightsFit, length_map]; exact h.1⟩
  · exact ⟨h.1, h.2.1⟩

theorem dot_zip3 (r x y : List K) :
    dot (zipWith (· * ·) r x) (zipWith (· * ·) r y) = dot x (zipWith (· * ·) (r.map fun a => a * a) y) := by
  induction r generalizing x y with
  | nil => simp
  | cons a r ih =>
    cases x with
    | nil => simp
    | cons b x =>
      cases y with
      | nil => simp
      | cons c y =>
        simp only [map_cons, zipWith_cons_cons, dot_cons, ih x y]
        ring

/-- The inner product with weights is the inner product of the weighted vectors. -/
theorem RootOf.inner {ext : PodExt K} {n : Nat} {W : Option (Weights K)} (h : RootOf ext n W) (x y : List K)
    (hx : x.length = n) (hy : y.length = n) :
    dot x (wvec W y) = dot (wvec (rootW ext W) x) (wvec (rootW ext W) y) := by
  rcases W with _ | (w | A)
  · rfl
  · obtain ⟨h1, h2⟩ := h
    simp only [wvec, rootW]
    rw [dot_zip3, map_map]
    have : w.map ((fun a => a * a) ∘ ext.sqrt) = w := by
      conv_rhs => rw [← map_id w]
      exact map_congr_left fun a ha => h2 a ha
    rw [this]
  · obtain ⟨h1, h2, h3, h4, h5⟩ := h
    simp only [wvec, rootW]
    have hl : (matVec (ext.sqrtm A).rows y).length = n := by simp [matVec, h2.2.2.1, h2.1]
    rw [← h4 y hy, h3 _ _ hx hl, dot_comm']

/-- Unweighting undoes weighting, on every left vector. -/
theorem unweighted_root {ext : PodExt K} [LinearOrder K] {n : Nat} (s : Pod K) (hm : s.mos = false)
    (h : RootOf ext n s.lin.weights) (L V : Cols K) (hL : ∀ c ∈ L.cols, c.length = n)
    (hV : s.unweighted ext L = .ok V) : V.n = L.n ∧ (∀ c ∈ V.cols, c.length = n) ∧
      V.cols.map (wvec (rootW ext s.lin.weights)) = L.cols := by
  simp only [Pod.unweighted, hm, Bool.false_eq_true, if_false] at hV
  cases hW : s.lin.weights with
  | none =>
    simp only [hW, Except.ok.injEq] at hV
    subst hV
    refine ⟨rfl, hL, ?_⟩
    simp only [rootW]
    conv_rhs => rw [← map_id L.cols]
    exact map_congr_left fun _ _ => rfl
  | some w =>
    cases w with
    | diag w =>
      simp only [hW] at hV h
      obtain ⟨h1, h2⟩ := h
      split at hV
      · cases hV
      · rename_i hz
        simp only [Except.ok.injEq] at hV
        subst hV
        refine ⟨rfl, ?_, ?_⟩
        · intro c hc
          simp only [mem_map] at hc
          obtain ⟨c', hc', rfl⟩ := hc
          simpa using hL c' hc'
        · simp only [map_map, rootW]
          conv_rhs => rw [← map_id L.cols]
          apply map_congr_left
          intro c hc
          have hcl := hL c hc
          simp only [Function.comp_apply, wvec, id]
          apply ext_getElem (by simp [h1, hcl])
          intro i a1 a2
          have hi : i < w.length := by omega
          have hne : ext.sqrt w[i] ≠ 0 := fun h0 => hz (by rw [← h0]; exact mem_map_of_mem (getElem_mem hi))
          simp only [getElem_zipWith, getElem_map, getElem_mapIdx, getD_eq_getElem w _ hi]
          field_simp
    | full A =>
      simp only [hW] at hV h
      obtain ⟨h1, h2, h3, h4, h5⟩ := h
      simp only [Except.ok.injEq] at hV
      subst hV
      refine ⟨rfl, ?_, ?_⟩
      · intro c hc
        simp only [mem_map] at hc
        obtain ⟨c', hc', rfl⟩ := hc
        exact (h5 c' (hL c' hc')).1
      · simp only [map_map, rootW]
        conv_rhs => rw [← map_id L.cols]
        apply map_congr_left
        intro c hc
        simp only [Function.comp_apply, wvec, id]
        exact (h5 c (hL c hc)).2

/-- The weighted states. -/
theorem weighted_root {ext : PodExt K} [LinearOrder K] {n : Nat} (s : Pod K) (hm : s.mos = false)
    (h : RootOf ext n s.lin.weights) (Y Z : Snap K) (c : Option Nat) (hY : Y.Shaped n c)
    (hZ : s.weighted ext Y = .ok Z) : Z.Shaped n c ∧
      ∀ j, j < Y.width → Z.column j = wvec (rootW ext s.lin.weights) (Y.column j) := by
  have key : s.weighted ext Y = applyWeights (rootW ext s.lin.weights) Y := by
    simp only [Pod.weighted, hm, Bool.false_eq_true, if_false]
    cases hW : s.lin.weights with
    | none => rfl
    | some w =>
      rw [hW] at h
      cases w with
      | diag w =>
        obtain ⟨h1, h2⟩ := h
        have hl : Y.len = w.length := by rw [hY.len, h1]
        have hl' : Y.len = (w.map ext.sqrt).length := by rw [length_map, hl]
        simp only [applyWeights, rootW]
        rw [if_pos hl, if_pos hl']
        congr 1
        have hg : ∀ i, i < w.length → (w.map ext.sqrt).getD i 0 = ext.sqrt (w.getD i 0) := by
          intro i hi
          rw [getD_eq_getElem (map _ _) _ (by simpa using hi), getD_eq_getElem w _ hi, getElem_map]
        cases Y with
        | vec xs =>
          simp only [Snap.len] at hl
          simp only [Snap.rowMap]
          congr 1
          apply ext_getElem (by simp)
          intro i a1 a2
          simp only [getElem_mapIdx]
          rw [hg i (by simp at a1; omega)]
        | mat k rows =>
          simp only [Snap.len] at hl
          simp only [Snap.rowMap]
          congr 1
          apply ext_getElem (by simp)
          intro i a1 a2
          simp only [getElem_mapIdx]
          rw [hg i (by simp at a1; omega)]
      | full A =>
        obtain ⟨h1, h2, -⟩ := h
        simp only [applyWeights, rootW]
        rw [if_pos (by rw [hY.len, h1.1])]
  rw [key] at hZ
  obtain ⟨Z', e1, e2, e3⟩ := applyWeights_ok h.fit.2 hY
  rw [e1] at hZ
  cases hZ
  exact ⟨e2, e3⟩

end

section
variable [Field K] [LinearOrder K] [IsStrictOrderedRing K]

theorem RootOf.psd {ext : PodExt K} {n : Nat} {W : Option (Weights K)} (h : RootOf ext n W) : WeightsPSD W n := by
  refine ⟨fun x y hx hy => ?_, fun x hx => ?_⟩
  · rw [h.inner x y hx hy, h.inner y x hy hx, dot_comm']
  · rw [wnorm2, h.inner x x hx hx]
    exact dot_self_nonneg _

/-- A thin singular value decomposition of the matrix with columns `ys`: orthonormal left and right vectors, nonnegative
descending singular values, and every column is the combination of the left vectors with the scaled entries of the right
vectors. -/
structure IsThinSvd (n : Nat) (ys : List (List K)) (L : Cols K) (vals : List K) (R : Cols K) : Prop where
  leftN : L.n = n
  leftWF : L.WF
  rightN : R.n = ys.length
  rightWF : R.WF
  leftLen : L.cols.length = vals.length
  rightLen : R.cols.length = vals.length
  leftOrth : Orthonormal L none
  rightOrth : Orthonormal R none
  desc : vals.Pairwise (· ≥ ·)
  nonneg : ∀ a ∈ vals, 0 ≤ a
  recon : ∀ j, j < ys.length →
    ys.getD j [] = vecMat n (zipWith (· * ·) vals (R.cols.map fun c => c.getD j 0)) L.cols

namespace IsThinSvd
variable {n : Nat} {ys : List (List K)} {L : Cols K} {vals : List K} {R : Cols K}

theorem coord (h : IsThinSvd n ys L vals R) (j : Nat) (hj : j < ys.length) :
    matVec L.cols (ys.getD j []) = zipWith (· * ·) vals (R.cols.map fun c => c.getD j 0) := by
  have hG := (orthonormal_iff L none).1 h.leftOrth
  have := coords_combine (W := none) h.leftWF trivial hG (zipWith (· * ·) vals (R.cols.map fun c => c.getD j 0))
    (by simp [h.leftLen, h.rightLen])
  rw [matVec_transpose _ _ _ h.leftWF, h.leftN] at this
  rw [h.recon j hj]
  exact this

theorem sq_desc (h : IsThinSvd n ys L vals R) : (vals.map fun a => a * a).Pairwise (· ≥ ·) := by
  have h1 := h.desc
  have h2 := h.nonneg
  clear h
  rw [pairwise_map]
  refine Pairwise.imp_of_mem ?_ h1
  intro a b ha hb hab
  exact mul_self_le_mul_self (h2 b hb) hab

end IsThinSvd

theorem length_columns {Y : Snap K} {n : Nat} {c : Option Nat} (hY : Y.Shaped n c) : ∀ q ∈ columnsOf Y, q.length = n := by
  intro q hq
  simp only [columnsOf, mem_map] at hq
  obtain ⟨j, -, rfl⟩ := hq
  rw [Snap.length_column, hY.len]

/-- From the decomposition of the weighted states to the singular vectors with weights. -/
theorem podCore_svd {ext : PodExt K} {n : Nat} (s : Pod K) (hm : s.mos = false) (h : RootOf ext n s.lin.weights)
    (Y Z : Snap K) (c : Option Nat) (hY : Y.Shaped n c) (hZ : s.weighted ext Y = .ok Z) (L : Cols K) (vals : List K)
    (R V : Cols K) (hsvd : IsThinSvd n (columnsOf Z) L vals R) (hV : s.unweighted ext L = .ok V) :
    PodCore s.lin.weights n (columnsOf Y) V.cols vals (vals.map fun a => a * a) R.cols := by
  obtain ⟨z1, z2⟩ := weighted_root s hm h Y Z c hY hZ
  have hLn : ∀ c ∈ L.cols, c.length = n := fun c hc => by rw [hsvd.leftWF c hc, hsvd.leftN]
  obtain ⟨v1, v2, v3⟩ := unweighted_root s hm h L V hLn hV
  have hw : Z.width = Y.width := Snap.width_of_cols (z1.cols.trans hY.cols.symm)
  have hVL : V.cols.length = L.cols.length := by rw [← v3, length_map]
  have hVi : ∀ i (hi : i < V.cols.length), wvec (rootW ext s.lin.weights) V.cols[i] = L.cols[i]'(hVL ▸ hi) := by
    intro i hi
    have := getElem_of_eq v3 (i := i) (by simpa using hi)
    simpa using this
  have hcol : ∀ j, j < Y.width → ((columnsOf Y).getD j []).length = n ∧
      wvec (rootW ext s.lin.weights) ((columnsOf Y).getD j []) = (columnsOf Z).getD j [] := by
    intro j hj
    rw [columnsOf_getD Y j hj, columnsOf_getD Z j (hw ▸ hj)]
    exact ⟨by rw [Snap.length_column, hY.len], (z2 j hj).symm⟩
  have hwy : (columnsOf Y).length = Y.width := columnsOf_length Y
  have hwz : (columnsOf Z).length = Y.width := by rw [columnsOf_length, hw]
  constructor
  · exact h.fit.1
  · exact h.psd
  · exact length_columns hY
  · exact v2
  · intro c hc
    rw [hsvd.rightWF c hc, hsvd.rightN, hwz, hwy]
  · simp [hsvd.rightLen]
  · rw [hVL, hsvd.leftLen, hsvd.rightLen]
  · intro i j hi hj
    change dot V.cols[i] (wvec s.lin.weights V.cols[j]) = _
    rw [h.inner _ _ (v2 _ (getElem_mem _)) (v2 _ (getElem_mem _)), hVi i hi, hVi j hj]
    exact hsvd.leftOrth i j _ _
  · intro i j hi hj
    exact hsvd.rightOrth i j hi hj
  · exact hsvd.sq_desc
  · intro a ha
    rw [mem_map] at ha
    obtain ⟨b, -, rfl⟩ := ha
    exact mul_self_nonneg b
  · intro i j hi hj
    rw [hwy] at hi hj
    obtain ⟨i1, i2⟩ := hcol i hi
    obtain ⟨j1, j2⟩ := hcol j hj
    rw [h.inner _ _ i1 j1, i2, j2, hsvd.recon i (by omega), dot_vecMat _ _ _ _ hLn, hsvd.coord j (by omega),
      dot_fin R.cols.length _ _ (by simp [hsvd.rightLen]) (by simp [hsvd.rightLen])]
    refine Finset.sum_congr rfl fun l _ => ?_
    have hl : (l : Nat) < vals.length := by rw [← hsvd.rightLen]; exact l.2
    have hz : ∀ m, (zipWith (· * ·) vals (R.cols.map fun c => c.getD m 0)).getD l 0 =
        vals.getD l 0 * (R.cols.getD l []).getD m 0 := by
      intro m
      rw [getD_eq_getElem (zipWith _ _ _) _ (by simp [hl]), getElem_zipWith, getElem_map, getD_eq_getElem vals _ hl,
        getD_eq_getElem R.cols _ l.2]
    rw [hz, hz, getD_eq_getElem (map _ vals) _ (by simpa using hl), getElem_map, getD_eq_getElem vals _ hl]
    ring
  · intro l j hl hj
    rw [hwy] at hj
    obtain ⟨j1, j2⟩ := hcol j hj
    have hl' : l < L.cols.length := hVL ▸ hl
    have hlv : l < vals.length := hsvd.leftLen ▸ hl'
    rw [getD_eq_getElem V.cols _ hl, h.inner _ _ (v2 _ (getElem_mem _)) j1, j2, hVi l hl]
    have := congrArg (fun v => v.getD l 0) (hsvd.coord j (by omega))
    simp only [matVec] at this
    rw [getD_eq_getElem (map _ L.cols) _ (by simpa using hl'), getElem_map] at this
    have hlr : l < R.cols.length := by rw [hsvd.rightLen]; exact hlv
    rw [this, getD_eq_getElem (zipWith _ _ _) _ (by simp [hlv, hlr]), getElem_zipWith, getElem_map,
      getD_eq_getElem vals _ hlv, getD_eq_getElem R.cols _ hlr]
  · intro l hl
    have hlv : l < vals.length := by
      have := hsvd.leftLen
      omega
    rw [getD_eq_getElem (map _ vals) _ (by simpa using hlv), getElem_map, getD_eq_getElem vals _ hlv]

/-- Fewer left vectors. -/
theorem PodCore.keep {W : Option (Weights K)} {n : Nat} {qs L : List (List K)} {s lam : List K} {R : List (List K)}
    (h : PodCore W n qs L s lam R) (m : Nat) : PodCore W n qs (L.take m) s lam R := by
  have hget : ∀ l, l < (L.take m).length → l < L.length ∧ (L.take m).getD l [] = L.getD l [] := by
    intro l hl
    rw [length_take] at hl
    refine ⟨by omega, ?_⟩
    rw [getD_eq_getElem?_getD, getD_eq_getElem?_getD, getElem?_take_of_lt (by omega)]
  refine ⟨h.fitW, h.psd, h.qlen, fun c hc => h.Llen c (mem_of_mem_take hc), h.Rlen, h.lamlen, ?_, ?_, h.orthR, h.desc,
    h.nonneg, h.gram, ?_, ?_⟩
  · rw [length_take]
    have := h.le
    omega
  · intro i j hi hj
    have hi' : i < (L.take m).length := hi
    have hj' : j < (L.take m).length := hj
    rw [length_take] at hi' hj'
    have := h.orthL i j (show i < L.length by omega) (show j < L.length by omega)
    simpa [getElem_take] using this
  · intro l j hl hj
    rw [(hget l hl).2]
    exact h.coords l j (hget l hl).1 hj
  · intro l hl
    exact h.sq l (hget l hl).1

end

end Opinf
