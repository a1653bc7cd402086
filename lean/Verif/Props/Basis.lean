import Verif.Lemmas.Basis
import Mathlib.Tactic.Linarith

/-!
# C42: linear bases project

A basis is orthonormal when `⟨v_i, W v_j⟩` is 1 for `i = j` and 0 otherwise. The statements are about every column
of a state array; `Snap.column` of a single snapshot is the snapshot.
-/

namespace Opinf

open List

variable {K : Type}

/-- The basis has entries `V` (a proper array) and weights of matching size. -/
structure LinB.Has (b : LinB K) (V : Cols K) : Prop where
  entries : b.entries = some V
  wf : V.WF
  fit : weightsFit b.weights V.n

/-- `Vᵀ W V = I`, entry by entry. -/
def Orthonormal [Semiring K] (V : Cols K) (W : Option (Weights K)) : Prop :=
  ∀ i j, (hi : i < V.cols.length) → (hj : j < V.cols.length) →
    dot (V.cols[i]) (wvec W (V.cols[j])) = if i = j then 1 else 0

theorem orthonormal_iff [Semiring K] (V : Cols K) (W : Option (Weights K)) :
    Orthonormal V W ↔ (V.cols.map fun a => V.cols.map fun b => dot a (wvec W b)) = eye V.cols.length := by
  constructor
  · intro h
    apply ext_getElem (by simp [eye])
    intro i h1 h2
    have hi : i < V.cols.length := by simpa using h1
    apply ext_getElem (by simp [eye])
    intro j h3 h4
    have hj : j < V.cols.length := by simpa using h3
    simpa [eye] using h i j hi hj
  · intro h i j hi hj
    have := congrArg (fun l => (l.getD i []).getD j 0) h
    simpa [eye, getD_eq_getElem?_getD, hi, hj] using this

theorem compress_ok [CommSemiring K] {b : LinB K} {V : Cols K} (hb : b.Has V) {Y : Snap K} {c : Option Nat}
    (hY : Y.Shaped V.n c) : ∃ Z, b.compress Y = .ok Z ∧ Z.Shaped V.cols.length c ∧
      ∀ j, j < Y.width → Z.column j = matVec V.cols (wvec b.weights (Y.column j)) := by
  obtain ⟨X, e1, e2, e3⟩ := applyWeights_ok hb.fit hY
  obtain ⟨Z, f1, f2, f3⟩ := matSnap_ok V.cols e2
  refine ⟨Z, by simp only [LinB.compress, LinB.need, hb.entries, bind, Except.bind, e1, f1], f2, ?_⟩
  intro j hj
  rw [f3 j (by rw [Snap.width_of_cols (e2.cols.trans hY.cols.symm)]; exact hj), e3 j hj]

theorem decompress_ok [CommSemiring K] {b : LinB K} {V : Cols K} (hb : b.Has V) {Z : Snap K} {c : Option Nat}
    (hZ : Z.Shaped V.cols.length c) : ∃ Y, b.decompress Z none = .ok Y ∧ Y.Shaped V.n c ∧
      ∀ j, j < Z.width → Y.column j = matVec (transpose V.n V.cols) (Z.column j) := by
  obtain ⟨Y, f1, f2, f3⟩ := matSnap_ok (transpose V.n V.cols) hZ
  refine ⟨Y, by simp only [LinB.decompress, LinB.need, hb.entries, bind, Except.bind, LinB.rowsAt, f1],
    ⟨f2.wf, by rw [f2.len]; simp [transpose], f2.cols⟩, f3⟩

/-- C42: `compress(decompress(z)) = z` for every array of coordinates. -/
theorem C42_compress_decompress [CommSemiring K] (b : LinB K) (V : Cols K) (hb : b.Has V)
    (ho : Orthonormal V b.weights) (Z : Snap K) (c : Option Nat) (hZ : Z.Shaped V.cols.length c) :
    ∃ Y, Y.Shaped V.n c ∧ b.decompress Z none = .ok Y ∧ b.compress Y = .ok Z := by
  obtain ⟨Y, e1, e2, e3⟩ := decompress_ok hb hZ
  obtain ⟨Z', f1, f2, f3⟩ := compress_ok hb e2
  refine ⟨Y, e2, e1, ?_⟩
  rw [f1]
  congr 1
  apply snap_ext f2 hZ
  intro j hj
  have hw : Z'.width = Y.width := Snap.width_of_cols (f2.cols.trans e2.cols.symm)
  have hw2 : Y.width = Z.width := Snap.width_of_cols (e2.cols.trans hZ.cols.symm)
  rw [f3 j (by omega), e3 j (by omega)]
  exact coords_combine hb.wf hb.fit ((orthonormal_iff _ _).1 ho) _ (by rw [Snap.length_column, hZ.len])

/-- C42: the projection is idempotent. -/
theorem C42_project_idempotent [CommSemiring K] (b : LinB K) (V : Cols K) (hb : b.Has V)
    (ho : Orthonormal V b.weights) (Y : Snap K) (c : Option Nat) (hY : Y.Shaped V.n c) :
    ∃ P, P.Shaped V.n c ∧ linI.project b Y = .ok P ∧ linI.project b P = .ok P := by
  obtain ⟨Z, f1, f2, f3⟩ := compress_ok hb hY
  obtain ⟨P, p1, p2, p3⟩ := C42_compress_decompress b V hb ho Z c f2
  refine ⟨P, p1, ?_, ?_⟩
  · simp only [BasI.project, linI, f1, bind, Except.bind, p2]
  · simp only [BasI.project, linI, p3, bind, Except.bind, p2]

/-- C42: `decompress(z, locs)` is `decompress(z)[locs]`, for indices and slices. -/
theorem C42_decompress_locs [CommSemiring K] (b : LinB K) (V : Cols K) (hb : b.Has V) (Z Y : Snap K)
    (c : Option Nat) (hZ : Z.Shaped V.cols.length c) (h : b.decompress Z none = .ok Y) (l : Locs) :
    b.decompress Z (some l) = (locate V.n l).map Y.pick := by
  have hloc : locRows V.n l = locate V.n l := by
    cases l <;> rfl
  simp only [LinB.decompress, LinB.need, hb.entries, bind, Except.bind, LinB.rowsAt, hloc]
  cases hl : locate V.n l with
  | error e => rfl
  | ok ix =>
    have hin : ∀ i ∈ ix, i < V.n := by
      have : ∃ is : List Int, is.mapM (pyIndex V.n) = .ok ix := by
        cases l with
        | idx is => exact ⟨is, hl⟩
        | slice a b c =>
          simp only [locate, bind, Except.bind] at hl
          cases hs : sliceIdx V.n a b c with
          | error e => rw [hs] at hl; cases hl
          | ok is => rw [hs] at hl; exact ⟨is, hl⟩
      obtain ⟨is, his⟩ := this
      intro i hi
      obtain ⟨x, _, hx⟩ := mapM_ok_mem his i hi
      unfold pyIndex at hx
      split at hx
      · split at hx
        · simp only [Except.ok.injEq] at hx; omega
        · cases hx
      · split at hx
        · simp only [Except.ok.injEq] at hx; omega
        · cases hx
    simp only [Except.map]
    obtain ⟨Y', e1, e2, e3⟩ := decompress_ok hb hZ
    rw [h] at e1
    simp only [Except.ok.injEq] at e1
    subst e1
    obtain ⟨X, f1, f2, f3⟩ := matSnap_ok (ix.map fun i => V.cols.map fun c => c.getD i 0) hZ
    rw [f1]
    congr 1
    have hpick : (Y.pick ix).Shaped ix.length c := by
      refine ⟨?_, ?_, ?_⟩
      · cases Y with
        | vec xs => trivial
        | mat k rows =>
          intro row hr
          simp only [mem_map] at hr
          obtain ⟨i, hi, rfl⟩ := hr
          have hlt : i < rows.length := by
            have := e2.len
            simp only [Snap.len] at this
            rw [this]
            exact hin i hi
          rw [getD_eq_getElem?_getD, getElem?_eq_getElem hlt, Option.getD_some]
          exact e2.wf _ (getElem_mem hlt)
      · cases Y <;> simp [Snap.pick, Snap.len]
      · rw [← e2.cols]
        cases Y <;> rfl
    apply snap_ext (n := ix.length) (c := c) ⟨f2.wf, by rw [f2.len]; simp, f2.cols⟩ hpick
    intro j hj
    have hw : X.width = Z.width := Snap.width_of_cols (f2.cols.trans hZ.cols.symm)
    rw [f3 j (by omega)]
    have hcol : (Y.pick ix).column j = ix.map fun i => (Y.column j).getD i 0 := by
      cases Y with
      | vec xs => rfl
      | mat k rows =>
        simp only [Snap.pick, Snap.column, map_map]
        apply map_congr_left
        intro i _
        simp only [Function.comp_apply, getD_eq_getElem?_getD, getElem?_map]
        cases rows[i]? <;> simp
    rw [hcol, e3 j (by omega)]
    simp only [matVec, map_map]
    apply map_congr_left
    intro i hi
    have := hin i hi
    simp [transpose, getD_eq_getElem?_getD, this]

section closest
variable [Field K] [LinearOrder K] [IsStrictOrderedRing K]

/-- Squared length in the inner product with weights. -/
def wnorm2 (W : Option (Weights K)) (x : List K) : K := dot x (wvec W x)

/-- The weights define an inner product (possibly degenerate) on vectors of length `n`. -/
structure WeightsPSD (W : Option (Weights K)) (n : Nat) : Prop where
  symm : ∀ x y : List K, x.length = n → y.length = n → dot x (wvec W y) = dot y (wvec W x)
  nonneg : ∀ x : List K, x.length = n → 0 ≤ wnorm2 W x

theorem wnorm2_split {W : Option (Weights K)} {n : Nat} (hW : weightsFit W n) (hp : WeightsPSD W n) (u v : List K)
    (hu : u.length = n) (hv : v.length = n) (h0 : dot v (wvec W u) = 0) :
    wnorm2 W (vadd u v) = wnorm2 W u + wnorm2 W v := by
  have huv : u.length = v.length := by rw [hu, hv]
  have hl : (vadd u v).length = n := by simp [hu, hv]
  unfold wnorm2
  have e1 : ∀ x : List K, dot x (wvec W (vadd u v)) = dot x (wvec W u) + dot x (wvec W v) := by
    intro x
    rw [dot_wvec hW, dot_vadd_right _ _ _ huv, ← dot_wvec hW, ← dot_wvec hW]
  rw [e1, dot_vadd_left _ _ _ huv, dot_vadd_left _ _ _ huv, h0, hp.symm u v hu hv, h0]
  ring

/-- C42: the projection of every column is the closest point of the span of the basis, in the norm given by the
weights. -/
theorem C42_project_closest (b : LinB K) (V : Cols K) (hb : b.Has V) (ho : Orthonormal V b.weights)
    (hp : WeightsPSD b.weights V.n) (Y : Snap K) (c : Option Nat) (hY : Y.Shaped V.n c) :
    ∃ P, linI.project b Y = .ok P ∧ ∀ j, j < Y.width → ∀ z : List K, z.length = V.cols.length →
      wnorm2 b.weights (vsub (Y.column j) (P.column j)) ≤
        wnorm2 b.weights (vsub (Y.column j) (vecMat V.n z V.cols)) := by
  obtain ⟨Z, f1, f2, f3⟩ := compress_ok hb hY
  obtain ⟨P, e1, e2, e3⟩ := decompress_ok hb f2
  refine ⟨P, by simp only [BasI.project, linI, f1, bind, Except.bind, e1], ?_⟩
  intro j hj z hz
  have hw : Z.width = Y.width := Snap.width_of_cols (f2.cols.trans hY.cols.symm)
  set q := Y.column j with hq
  have hql : q.length = V.n := by rw [hq, Snap.length_column, hY.len]
  set y := matVec V.cols (wvec b.weights q) with hy
  have hyl : y.length = V.cols.length := by simp [hy, matVec]
  have hP : P.column j = vecMat V.n y V.cols := by
    rw [e3 j (by omega), f3 j hj, matVec_transpose _ _ _ hb.wf]
  rw [hP]
  have hG := (orthonormal_iff _ _).1 ho
  set p := vecMat V.n y V.cols with hpdef
  set x := vecMat V.n z V.cols with hxdef
  have hpl : p.length = V.n := length_vecMat _ _ _ hb.wf
  have hxl : x.length = V.n := length_vecMat _ _ _ hb.wf
  have hsum : vsub q x = vadd (vsub q p) (vsub p x) := by
    apply ext_getElem (by simp [hql, hpl, hxl])
    intro i h1 h2
    simp [vsub, vadd]
  have hcross : dot (vsub p x) (wvec b.weights (vsub q p)) = 0 := by
    have hu : (vsub q p).length = V.n := by simp [hql, hpl]
    -- the coordinates of the error vanish
    have hcoord : matVec V.cols (wvec b.weights (vsub q p)) = vsub y y := by
      have h1 : matVec V.cols (wvec b.weights (vsub q p)) =
          vsub (matVec V.cols (wvec b.weights q)) (matVec V.cols (wvec b.weights p)) := by
        apply ext_getElem (by simp [matVec])
        intro i hi _
        have hi' : i < V.cols.length := by simpa [matVec] using hi
        simp only [matVec, vsub, getElem_map, getElem_zipWith]
        have := dot_vsub_right (wadj b.weights (V.cols[i])) q p (by rw [hql, hpl])
        rw [dot_wvec hb.fit, dot_wvec hb.fit, dot_wvec hb.fit]
        exact this
      have h2 : matVec V.cols (wvec b.weights p) = y := by
        have := coords_combine hb.wf hb.fit hG y hyl
        rwa [matVec_transpose _ _ _ hb.wf] at this
      rw [h1, h2]
    have key : ∀ t : List K, dot (vecMat V.n t V.cols) (wvec b.weights (vsub q p)) = 0 := by
      intro t
      rw [dot_vecMat _ _ _ _ hb.wf, hcoord]
      have : vsub y y = replicate y.length 0 := by
        apply ext_getElem (by simp)
        intro i _ _
        simp [vsub]
      rw [this, dot_comm', dot_replicate_zero]
    have hlen : p.length = x.length := by rw [hpl, hxl]
    rw [dot_vsub_left _ _ _ hlen, hpdef, hxdef, key, key, sub_zero]
  rw [hsum, wnorm2_split hb.fit hp _ _ (by simp [hql, hpl]) (by simp [hpl, hxl]) hcross]
  have := hp.nonneg (vsub p x) (by simp [hpl, hxl])
  linarith

/-- No weights and nonnegative diagonal weights define an inner product. -/
theorem C42_weights_psd (n : Nat) (w : List K) (hw : ∀ a ∈ w, 0 ≤ a) :
    WeightsPSD (none : Option (Weights K)) n ∧ WeightsPSD (some (.diag w)) n := by
  refine ⟨⟨fun x y _ _ => dot_comm' x y, fun x _ => dot_self_nonneg x⟩, ⟨?_, ?_⟩⟩
  · intro x y _ _
    simp only [wvec]
    rw [dot_zipWith_mul, dot_comm']
  · intro x hx
    clear hx
    simp only [wnorm2, wvec]
    induction w generalizing x with
    | nil => simp
    | cons a w ih =>
      cases x with
      | nil => simp
      | cons c x =>
        simp only [zipWith_cons_cons, dot_cons]
        have h1 := ih (fun b hb => hw b (by simp [hb])) x
        have h2 := hw a (by simp)
        have : c * (a * c) = a * c ^ 2 := by ring
        have := mul_nonneg h2 (sq_nonneg c)
        linarith

end closest

/-- C42: the constructor. It fails exactly for weights with a wrong number of dimensions; it warns exactly if the
basis is not orthonormal; it stores entries, dimensions and name. -/
theorem C42_constructor [CommSemiring K] [DecidableEq K] (V : Cols K) (hV : V.WF) (W : WArg K)
    (W' : Option (Weights K)) (hW : W.toWeights = .ok W') (hf : weightsFit W' V.n) (name : Option String) :
    ∃ b w, LinB.make V W true name = .ok (b, w) ∧ (w = false ↔ Orthonormal V W') ∧ b.Has V ∧ b.weights = W' ∧
      b.n = some V.n ∧ b.r = some (V.cols.length : Int) ∧ b.name = name := by
  refine ⟨⟨name, some V.n, some V.cols.length, some V, W'⟩, _, by
    simp only [LinB.make, hW, bind, Except.bind, LinB.init, if_true, orthWarn, basisGram_ok hV hf, Except.map]
    rfl, ?_, ⟨rfl, hV, hf⟩, rfl, rfl, rfl, rfl⟩
  rw [orthonormal_iff]
  simp

/-- C42: weights that are neither one- nor two-dimensional are refused. -/
theorem C42_weights_refused [CommSemiring K] [DecidableEq K] (V : Cols K) (check : Bool) (name : Option String) :
    LinB.make V .other check name = .error .value := rfl

/-- C42: a basis without entries raises AttributeError; states and coordinates of a wrong length raise ValueError. -/
theorem C42_errors [CommSemiring K] (b : LinB K) (Y : Snap K) (locs : Option Locs) :
    (b.entries = none → b.compress Y = .error .attribute ∧ b.decompress Y locs = .error .attribute) ∧
    (∀ V, b.Has V → Y.len ≠ V.n → b.compress Y = .error .value) ∧
    (∀ V, b.Has V → Y.len ≠ V.cols.length → b.decompress Y none = .error .value) := by
  refine ⟨?_, ?_, ?_⟩
  · intro h
    simp [LinB.compress, LinB.decompress, LinB.need, h, bind, Except.bind]
  · intro V hb hl
    simp only [LinB.compress, LinB.need, hb.entries, bind, Except.bind]
    have hf := hb.fit
    cases hW : b.weights with
    | none => simp [applyWeights, matSnap, hl]
    | some w =>
      rw [hW] at hf
      cases w with
      | diag w =>
        have : ¬ Y.len = w.length := by
          have : w.length = V.n := hf
          omega
        simp [applyWeights, this]
      | full A =>
        have : ¬ Y.len = A.ncols := by
          have := hf.2.1
          omega
        simp [applyWeights, matSnap, this]
  · intro V hb hl
    simp [LinB.decompress, LinB.need, hb.entries, bind, Except.bind, LinB.rowsAt, matSnap, hl]

/-! ### Examples -/

/-- A basis of two weighted orthonormal vectors in three dimensions. -/
def exBasis : LinB ℚ := ⟨none, some 3, some 2, some ⟨3, [[1/2, 0, 0], [0, 3/5, 4/5]]⟩, some (.diag [4, 1, 1])⟩

example : exBasis.Has ⟨3, [[1/2, 0, 0], [0, 3/5, 4/5]]⟩ ∧
    (LinB.make (K := ℚ) ⟨3, [[1/2, 0, 0], [0, 3/5, 4/5]]⟩ (.one [4, 1, 1]) true none) = .ok (exBasis, false) := by
  refine ⟨⟨rfl, by intro c hc; simp at hc; rcases hc with rfl | rfl <;> rfl, rfl⟩, by decide +kernel⟩

example : linI.project exBasis (.mat 1 [[3], [5], [0]]) = .ok (.mat 1 [[3], [9/5], [12/5]]) ∧
    exBasis.decompress (.vec [2, 5]) (some (.idx [-1, 0])) = .ok (.vec [4, 1]) := by decide +kernel

end Opinf
