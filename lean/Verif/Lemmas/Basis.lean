import Verif.Model.Basis
import Verif.Props.TransformSpec
import Verif.Lemmas.Transform
import Verif.Lemmas.Lift
import Verif.Lemmas.Lstsq

/-! # Helper lemmas about bases: everything acts on columns -/

namespace Opinf

open List

variable {K : Type}

/-- Column `j` of a state array (a single snapshot is its own column). -/
def Snap.column [Zero K] : Snap K → Nat → List K
  | .vec xs, _ => xs
  | .mat _ rows, j => rows.map fun row => row.getD j 0

/-- Number of columns, 1 for a single snapshot. -/
def Snap.width : Snap K → Nat
  | .vec _ => 1
  | .mat k _ => k

theorem Snap.width_of_cols {Y Z : Snap K} (h : Y.cols = Z.cols) : Y.width = Z.width := by
  cases Y <;> cases Z <;> simp_all [Snap.cols, Snap.width]

theorem Snap.length_column [Zero K] (Y : Snap K) (j : Nat) : (Y.column j).length = Y.len := by
  cases Y <;> simp [Snap.column, Snap.len]

/-- Arrays of the same shape with the same columns are equal. -/
theorem snap_ext [Zero K] {Y Z : Snap K} {n : Nat} {c : Option Nat} (hY : Y.Shaped n c) (hZ : Z.Shaped n c)
    (h : ∀ j, j < Y.width → Y.column j = Z.column j) : Y = Z := by
  cases Y with
  | vec xs =>
    cases Z with
    | vec ys =>
      have := h 0 (by simp [Snap.width])
      simpa [Snap.column] using this
    | mat k rows =>
      have := hY.cols.trans hZ.cols.symm
      simp [Snap.cols] at this
  | mat k rows =>
    cases Z with
    | vec ys =>
      have := hY.cols.trans hZ.cols.symm
      simp [Snap.cols] at this
    | mat l rows' =>
      have hk := hY.cols.trans hZ.cols.symm
      simp only [Snap.cols, Option.some.injEq] at hk
      subst hk
      congr 1
      have hl : rows.length = rows'.length := by
        have h1 := hY.len
        have h2 := hZ.len
        simp only [Snap.len] at h1 h2
        omega
      apply ext_getElem hl
      intro i h1 h2
      have r1 := hY.wf (rows[i]) (getElem_mem h1)
      have r2 := hZ.wf (rows'[i]) (getElem_mem h2)
      apply ext_getElem (by rw [r1, r2])
      intro j hj hj2
      have := congrArg (fun l => l.getD i 0) (h j (by simp only [Snap.width]; omega))
      simpa [Snap.column, getD_eq_getElem?_getD, h1, h2, hj, hj2] using this

theorem getD_vecMat [CommSemiring K] (k : Nat) (a : List K) (rows : List (List K)) (hr : ∀ r ∈ rows, r.length = k)
    (j : Nat) (hj : j < k) : (vecMat k a rows).getD j 0 = dot a (rows.map fun row => row.getD j 0) := by
  rw [← dot_unit k j _ (length_vecMat k a rows hr) hj, dot_vecMat k a rows _ hr]
  congr 1
  apply map_congr_left
  intro r h
  exact dot_unit k j r (hr r h) hj

/-- A matrix product acts on every column. -/
theorem matSnap_ok [CommSemiring K] (A : List (List K)) {m : Nat} {Y : Snap K} {c : Option Nat} (hY : Y.Shaped m c) :
    ∃ Z, matSnap A m Y = .ok Z ∧ Z.Shaped A.length c ∧ ∀ j, j < Y.width → Z.column j = matVec A (Y.column j) := by
  unfold matSnap
  rw [if_neg (by rw [hY.len]; simp)]
  cases Y with
  | vec xs =>
    exact ⟨_, rfl, ⟨trivial, by simp [Snap.len, matVec], hY.cols⟩, fun j _ => rfl⟩
  | mat k rows =>
    refine ⟨_, rfl, ⟨matMul_rows k A rows hY.wf, by simp [Snap.len, matMul], hY.cols⟩, ?_⟩
    intro j hj
    simp only [Snap.column, matMul, map_map, matVec]
    apply map_congr_left
    intro a _
    exact getD_vecMat k a rows hY.wf j hj

/-- The weights fit to states with `n` entries. -/
def weightsFit (W : Option (Weights K)) (n : Nat) : Prop :=
  match W with
  | none => True
  | some (.diag w) => w.length = n
  | some (.full A) => A.nrows = n ∧ A.ncols = n ∧ A.WF

/-- Weights times a vector. -/
def wvec [Semiring K] (W : Option (Weights K)) (x : List K) : List K :=
  match W with
  | none => x
  | some (.diag w) => zipWith (· * ·) w x
  | some (.full A) => matVec A.rows x

/-- The transposed weights times a vector. -/
def wadj [Semiring K] (W : Option (Weights K)) (x : List K) : List K :=
  match W with
  | none => x
  | some (.diag w) => zipWith (· * ·) w x
  | some (.full A) => vecMat A.ncols x A.rows

theorem length_wvec [Semiring K] {W : Option (Weights K)} {n : Nat} (hW : weightsFit W n) {x : List K}
    (hx : x.length = n) : (wvec W x).length = n := by
  unfold wvec
  split
  · exact hx
  · rename_i w
    have : w.length = n := hW
    simp [this, hx]
  · rename_i A
    obtain ⟨h1, _, h3, _⟩ := hW
    simp [matVec, h3, h1]

theorem length_wadj [Semiring K] {W : Option (Weights K)} {n : Nat} (hW : weightsFit W n) {x : List K}
    (hx : x.length = n) : (wadj W x).length = n := by
  unfold wadj
  split
  · exact hx
  · rename_i w
    have : w.length = n := hW
    simp [this, hx]
  · rename_i A
    obtain ⟨_, h2, _, h4⟩ := hW
    rw [length_vecMat _ _ _ h4, h2]

theorem dot_zipWith_mul [CommSemiring K] (w x y : List K) :
    dot x (zipWith (· * ·) w y) = dot (zipWith (· * ·) w x) y := by
  induction w generalizing x y with
  | nil => simp
  | cons a w ih =>
    cases x with
    | nil => simp
    | cons b x =>
      cases y with
      | nil => simp
      | cons c y =>
        simp only [zipWith_cons_cons, dot_cons, ih x y]
        ring

/-- `⟨x, W y⟩ = ⟨Wᵀ x, y⟩`. -/
theorem dot_wvec [CommSemiring K] {W : Option (Weights K)} {n : Nat} (hW : weightsFit W n) (x y : List K) :
    dot x (wvec W y) = dot (wadj W x) y := by
  unfold wvec wadj
  split
  · rfl
  · exact dot_zipWith_mul _ _ _
  · obtain ⟨_, _, _, h4⟩ := hW
    exact (dot_vecMat _ x _ y h4).symm

/-- Weights act on every column. -/
theorem applyWeights_ok [CommSemiring K] {W : Option (Weights K)} {n : Nat} (hW : weightsFit W n) {Y : Snap K}
    {c : Option Nat} (hY : Y.Shaped n c) :
    ∃ Z, applyWeights W Y = .ok Z ∧ Z.Shaped n c ∧ ∀ j, j < Y.width → Z.column j = wvec W (Y.column j) := by
  rcases W with _ | (w | A)
  · exact ⟨Y, rfl, hY, fun _ _ => rfl⟩
  · have hw : w.length = n := hW
    refine ⟨Y.rowMap fun i x => w.getD i 0 * x, by
      simp only [applyWeights]; rw [if_pos (by rw [hY.len, hw])], ?_, ?_⟩
    · cases Y with
      | vec xs => exact ⟨trivial, by have := hY.len; simpa [Snap.rowMap, Snap.len] using this, hY.cols⟩
      | mat k rows =>
        refine ⟨?_, by have := hY.len; simpa [Snap.rowMap, Snap.len] using this, hY.cols⟩
        intro row hr
        simp only [mem_mapIdx] at hr
        obtain ⟨i, hi, rfl⟩ := hr
        simpa using hY.wf _ (getElem_mem hi)
    · intro j hj
      have hl := hY.len
      cases Y with
      | vec xs =>
        simp only [Snap.len] at hl
        simp only [Snap.rowMap, Snap.column, wvec]
        apply ext_getElem (by simp [hw, hl])
        intro i h1 h2
        have : i < w.length := by simp at h1; omega
        simp [getD_eq_getElem?_getD, this]
      | mat k rows =>
        simp only [Snap.len] at hl
        simp only [Snap.rowMap, Snap.column, wvec]
        apply ext_getElem (by simp [hw, hl])
        intro i h1 h2
        have hi : i < w.length := by simp at h1; omega
        have hi2 : i < rows.length := by simp at h1; omega
        have hj2 : j < (rows[i]).length := by
          have := hY.wf _ (getElem_mem hi2)
          simp only [Snap.width] at hj
          omega
        simp [getD_eq_getElem?_getD, hi, hj2]
  · obtain ⟨h1, h2, h3, h4⟩ := hW
    have hY' : Y.Shaped A.ncols c := ⟨hY.wf, by rw [hY.len, h2], hY.cols⟩
    obtain ⟨Z, e1, e2, e3⟩ := matSnap_ok A.rows hY'
    exact ⟨Z, e1, ⟨e2.wf, by rw [e2.len, h3, h1], e2.cols⟩, e3⟩

/-- The matrix `Vᵀ W V`. -/
theorem basisGram_ok [CommSemiring K] {V : Cols K} (hV : V.WF) {W : Option (Weights K)} (hW : weightsFit W V.n) :
    basisGram V W = .ok (V.cols.map fun a => V.cols.map fun b => dot a (wvec W b)) := by
  have h1 : V.cols.mapM (weightCol W) = .ok (V.cols.map (wvec W)) := by
    apply mapM_ok_of
    intro b hb
    have hs : (Snap.vec b).Shaped V.n none := ⟨trivial, hV b hb, rfl⟩
    obtain ⟨Z, e1, e2, e3⟩ := applyWeights_ok hW hs
    simp only [weightCol, e1, bind, Except.bind]
    cases Z with
    | vec xs =>
      have := e3 0 (by simp [Snap.width])
      simp only [Snap.column] at this
      simp only [this]
    | mat k rows => have := e2.cols; simp [Snap.cols] at this
  have h2 : (V.cols.map (wvec W)).all (fun c => c.length == V.n) = true := by
    rw [all_eq_true]
    intro c hc
    rw [mem_map] at hc
    obtain ⟨b, hb, rfl⟩ := hc
    simp [length_wvec hW (hV b hb)]
  simp only [basisGram, h1, bind, Except.bind, h2, if_true, map_map, Function.comp_def]

/-- Coordinates and linear combinations of the columns. -/
theorem coords_combine [CommSemiring K] {V : Cols K} (hV : V.WF) {W : Option (Weights K)} (hW : weightsFit W V.n)
    (hG : (V.cols.map fun a => V.cols.map fun b => dot a (wvec W b)) = eye V.cols.length) (z : List K)
    (hz : z.length = V.cols.length) : matVec V.cols (wvec W (matVec (transpose V.n V.cols) z)) = z := by
  rw [matVec_transpose V.n V.cols z hV]
  have h1 : matVec V.cols (wvec W (vecMat V.n z V.cols)) =
      matVec (V.cols.map fun a => V.cols.map fun b => dot a (wvec W b)) z := by
    simp only [matVec, map_map]
    apply map_congr_left
    intro a _
    rw [Function.comp_apply, dot_wvec hW, dot_comm', dot_vecMat V.n z V.cols _ hV, dot_comm']
    congr 1
    simp only [matVec]
    apply map_congr_left
    intro b _
    rw [dot_wvec hW, dot_comm']
  rw [h1, hG, matVec_eye _ _ hz]

end Opinf
