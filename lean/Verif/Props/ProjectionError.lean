import Verif.Model.VerifyBasis
import Verif.Props.VerifyBasisLimits
import Verif.Props.Post

/-!
# C91: `projection_error()` of bases

`energy` is the sum of the squares of all entries. For every basis, state array and square root:

* the absolute error is the root of the energy of the difference between the states and their projection, and
  the relative error the quotient by the root of the energy of the states; it is `nan` for zero states that are
  projected to themselves;
* for a basis without weights it is what `post.projection_error` returns;
* for an orthonormal basis it is zero exactly if the states are combinations of the basis vectors;
* for an orthonormal basis without weights no other coordinates give a smaller error, and the relative error is at
  most 1; with weights both are false;
* the square of the error of a multi-variable basis is the sum of the squares of the errors of the variables.
-/

namespace Opinf

open List

variable {K S : Type}

/-- Sum of the squares of all entries. -/
def Snap.energy [Semiring K] : Snap K → K
  | .vec xs => (xs.map fun x => x ^ 2).sum
  | .mat _ rows => (rows.map fun row => (row.map fun x => x ^ 2).sum).sum

section General

variable [Field K]

theorem norm_energy (sqrt : K → K) (Y : Snap K) : Y.norm sqrt = sqrt Y.energy := by
  cases Y <;> rfl

theorem minus_shaped {Y P : Snap K} {n : Nat} {c : Option Nat} (hY : Y.Shaped n c) (hP : P.Shaped n c) :
    ∃ D, Y.minus P = .ok D ∧ D.Shaped n c ∧ ∀ j, j < Y.width → D.column j = vsub (Y.column j) (P.column j) := by
  cases Y with
  | vec xs =>
    cases P with
    | mat k rows => rw [← hY.cols] at hP; cases hP.cols
    | vec ys =>
      have hl : xs.length = ys.length := hY.len.trans hP.len.symm
      refine ⟨.vec (vsub xs ys), by simp only [Snap.minus, if_pos hl], ⟨trivial, ?_, hY.cols⟩, fun _ _ => rfl⟩
      have h1 : xs.length = n := hY.len
      simp [Snap.len, vsub, ← hl, h1]
  | mat k rows =>
    cases P with
    | vec xs => rw [← hY.cols] at hP; cases hP.cols
    | mat l rows' =>
      have hkl : l = k := by
        have := hP.cols.trans hY.cols.symm
        simpa [Snap.cols] using this
      subst hkl
      have h1 : rows.length = n := hY.len
      have h2 : rows'.length = n := hP.len
      have hl : rows.length = rows'.length := h1.trans h2.symm
      have hw1 : ∀ row ∈ rows, row.length = l := hY.wf
      have hw2 : ∀ row ∈ rows', row.length = l := hP.wf
      refine ⟨.mat l (zipWith vsub rows rows'), by simp [Snap.minus, hl],
        ⟨?_, ?_, hY.cols⟩, ?_⟩
      · intro row hr
        obtain ⟨i, hi, rfl⟩ := mem_iff_getElem.1 hr
        simp only [length_zipWith] at hi
        rw [getElem_zipWith, length_vsub, hw1 _ (getElem_mem _), hw2 _ (getElem_mem _), Nat.min_self]
      · simp [Snap.len, hl, h2]
      · intro j hj
        have hj : j < l := hj
        apply ext_getElem
        · simp [Snap.column, vsub]
        · intro i a1 a2
          have hi : i < rows.length ∧ i < rows'.length := by
            simp only [Snap.column, length_map, length_zipWith] at a1
            omega
          simp only [Snap.column, getElem_map, getElem_zipWith, vsub]
          have e1 : j < rows[i].length := by rw [hw1 _ (getElem_mem _)]; exact hj
          have e2 : j < rows'[i].length := by rw [hw2 _ (getElem_mem _)]; exact hj
          simp [getD_eq_getElem?_getD, e1, e2]

/-- The energy, column by column. -/
theorem energy_columns {Y : Snap K} {n : Nat} {c : Option Nat} (hY : Y.Shaped n c) :
    Y.energy = ((range Y.width).map fun j => sumSq (Y.column j)).sum := by
  cases Y with
  | vec xs => simp [Snap.energy, Snap.width, Snap.column, sumSq]
  | mat k rows =>
    have hw : ∀ row ∈ rows, row.length = k := hY.wf
    simp only [Snap.energy, Snap.width, Snap.column, sumSq, map_map]
    clear hY
    induction rows with
    | nil => simp
    | cons row rows ih =>
      have h1 := ih fun r hr => hw r (mem_cons_of_mem _ hr)
      simp only [map_cons, sum_cons, sum_map_add, h1]
      congr 1
      have hr : row.length = k := hw row mem_cons_self
      congr 1
      apply ext_getElem (by simp [hr])
      intro i a1 a2
      have : i < row.length := by simpa using a1
      simp [getD_eq_getElem?_getD, this]

variable [DecidableEq K]

/-- C91: absolute and relative errors, for a basis of any class that keeps the shape. -/
theorem C91_value (sqrt : K → K) {I : BasI K S} {s : S} {Y P D : Snap K} (hP : I.project s Y = .ok P)
    (hD : Y.minus P = .ok D) :
    I.projectionError sqrt s Y false = .ok (.num (sqrt D.energy)) ∧
      I.projectionError sqrt s Y true = .ok (if sqrt Y.energy = 0 then (if sqrt D.energy = 0 then .nan else .inf)
        else .num (sqrt D.energy / sqrt Y.energy)) := by
  simp only [BasI.projectionError, hP, hD, bind, Except.bind, pure, Except.pure, norm_energy, Bool.false_eq_true,
    if_false, if_true, ratio, and_self]

/-- C91: errors of `compress` and `decompress` are passed on. -/
theorem C91_error (sqrt : K → K) {I : BasI K S} {s : S} {Y : Snap K} {e : Err} (h : I.project s Y = .error e)
    (relative : Bool) : I.projectionError sqrt s Y relative = .error e := by
  simp only [BasI.projectionError, h, bind, Except.bind]

/-- C91: for a linear basis without weights, `projection_error` of the module `post` returns both errors. -/
theorem C91_post (sqrt : K → K) {b : LinB K} {V : Cols K} (hb : b.Has V) (hw : b.weights = none) {Y : Snap K}
    {c : Option Nat} (hY : Y.Shaped V.n c) : ∃ a rho,
      linI.projectionError sqrt b Y false = .ok (.num a) ∧ linI.projectionError sqrt b Y true = .ok rho ∧
      projectionError sqrt (.mat V.n (columnsOf Y)) V = .ok (a, rho) := by
  obtain ⟨Z, f1, f2, f3⟩ := compress_ok hb hY
  obtain ⟨P, e1, e2, e3⟩ := decompress_ok hb f2
  have hP : linI.project b Y = .ok P := by simp only [BasI.project, linI, f1, bind, Except.bind, e1]
  obtain ⟨D, d1, d2, d3⟩ := minus_shaped hY e2
  have hwz : Z.width = Y.width := Snap.width_of_cols (f2.cols.trans hY.cols.symm)
  have hwd : D.width = Y.width := Snap.width_of_cols (d2.cols.trans hY.cols.symm)
  have hcol : ∀ j, j < Y.width → P.column j = vecMat V.n (matVec V.cols (Y.column j)) V.cols := by
    intro j hj
    rw [e3 j (by omega), f3 j hj, matVec_transpose _ _ _ hb.wf, hw]
    rfl
  refine ⟨sqrt D.energy, ratio (sqrt D.energy) (sqrt Y.energy), (C91_value sqrt hP d1).1, (C91_value sqrt hP d1).2, ?_⟩
  have h1 : frobNorm sqrt (columnsOf Y) = .ok (sqrt Y.energy) := by
    rw [frobNorm, energy_columns hY, columnsOf, map_map]
    rfl
  have h2 : frobNorm sqrt (subCols (columnsOf Y) ((columnsOf Y).map fun q => vecMat V.n (matVec V.cols q) V.cols)) =
      .ok (sqrt D.energy) := by
    rw [frobNorm, energy_columns d2, hwd]
    congr 3
    apply ext_getElem (by simp [subCols, columnsOf])
    intro j a1 a2
    have hj : j < Y.width := by simpa using a2
    simp only [subCols, columnsOf, getElem_map, getElem_zipWith, getElem_range]
    rw [d3 j hj, hcol j hj]
  simp only [projectionError, if_true, absRel, h1, h2, bind, Except.bind, pure, Except.pure]

end General

section Ordered

variable [Field K] [LinearOrder K] [IsStrictOrderedRing K]

theorem energy_nonneg (Y : Snap K) : 0 ≤ Y.energy := by
  have h : ∀ xs : List K, 0 ≤ (xs.map fun x => x ^ 2).sum := fun xs => sumSq_nonneg xs
  cases Y with
  | vec xs => exact h xs
  | mat k rows =>
    apply sum_nonneg
    intro x hx
    obtain ⟨row, _, rfl⟩ := mem_map.1 hx
    exact h row

theorem sqrt_mono {sqrt : K → K} (h : SquareRoot sqrt) {x y : K} (hx : 0 ≤ x) (hxy : x ≤ y) : sqrt x ≤ sqrt y := by
  obtain ⟨a1, a2⟩ := h x hx
  obtain ⟨b1, b2⟩ := h y (hx.trans hxy)
  by_contra hc
  have hc := not_le.1 hc
  have : sqrt y ^ 2 < sqrt x ^ 2 := pow_lt_pow_left₀ hc b1 (by decide)
  rw [a2, b2] at this
  exact absurd hxy (not_le.2 this)

theorem sqrt_eq_zero {sqrt : K → K} (h : SquareRoot sqrt) {x : K} (hx : 0 ≤ x) : sqrt x = 0 ↔ x = 0 := by
  obtain ⟨a1, a2⟩ := h x hx
  constructor
  · intro h0
    rw [← a2, h0]
    exact zero_pow (by decide)
  · intro h0
    rw [h0] at a2 ⊢
    exact pow_eq_zero_iff (by decide) |>.1 a2

/-- The energy of a difference vanishes exactly for equal arrays. -/
theorem energy_minus_eq_zero {Y P D : Snap K} {n : Nat} {c : Option Nat} (hY : Y.Shaped n c) (hP : P.Shaped n c)
    (hD : Y.minus P = .ok D) : D.energy = 0 ↔ Y = P := by
  obtain ⟨D', d1, d2, d3⟩ := minus_shaped hY hP
  rw [hD] at d1
  cases d1
  have hw : D.width = Y.width := Snap.width_of_cols (d2.cols.trans hY.cols.symm)
  have hl : ∀ j, (Y.column j).length = (P.column j).length := by
    intro j
    rw [Snap.length_column, Snap.length_column, hY.len, hP.len]
  rw [energy_columns d2, hw]
  constructor
  · intro h0
    apply snap_ext hY hP
    intro j hj
    have := all_zero_of_le_zero_le_of_sum_eq_zero (l := (range Y.width).map fun j => sumSq (D.column j))
      (by
        intro x hx
        obtain ⟨i, _, rfl⟩ := mem_map.1 hx
        exact sumSq_nonneg _) h0 (mem_map.2 ⟨j, mem_range.2 hj, rfl⟩)
    have h1 := sumSq_eq_zero _ this
    rw [d3 j hj] at h1
    apply ext_getElem (hl j)
    intro i a1 a2
    have h2 := congrArg (fun l => l.getD i 0) h1
    have h3 : i < (vsub (Y.column j) (P.column j)).length := by
      rw [length_vsub]
      omega
    simp only [getD_eq_getElem?_getD, getElem?_eq_getElem h3, Option.getD_some, getElem?_replicate, if_pos h3] at h2
    simp only [vsub, getElem_zipWith] at h2
    exact sub_eq_zero.1 h2
  · intro he
    subst he
    apply sum_eq_zero
    intro x hx
    obtain ⟨j, hj, rfl⟩ := mem_map.1 hx
    rw [d3 j (mem_range.1 hj)]
    have : vsub (Y.column j) (Y.column j) = replicate (Y.column j).length 0 := by
      apply ext_getElem (by simp)
      intro i _ _
      simp [vsub]
    rw [this, sumSq_replicate_zero]

/-- C91: the error of a basis of any class that keeps the shape is nonnegative, and zero exactly if the states are
projected to themselves. -/
theorem C91_zero_iff_fixed {sqrt : K → K} (h : SquareRoot sqrt) {I : BasI K S} {s : S} {Y P : Snap K} {n : Nat}
    {c : Option Nat} (hY : Y.Shaped n c) (hP : P.Shaped n c) (hp : I.project s Y = .ok P) :
    ∃ a, I.projectionError sqrt s Y false = .ok (.num a) ∧ 0 ≤ a ∧ (a = 0 ↔ P = Y) := by
  obtain ⟨D, d1, _⟩ := minus_shaped hY hP
  refine ⟨_, (C91_value sqrt hp d1).1, (h _ (energy_nonneg D)).1, ?_⟩
  rw [sqrt_eq_zero h (energy_nonneg D), energy_minus_eq_zero hY hP d1, eq_comm]

/-- C91: for an orthonormal basis, with weights or without, the error is zero exactly if the states are
decompressed coordinates. -/
theorem C91_zero_iff {sqrt : K → K} (h : SquareRoot sqrt) {b : LinB K} {V : Cols K} (hb : b.Has V)
    (ho : Orthonormal V b.weights) {Y : Snap K} {c : Option Nat} (hY : Y.Shaped V.n c) :
    linI.projectionError sqrt b Y false = .ok (.num 0) ↔
      ∃ Z, Z.Shaped V.cols.length c ∧ b.decompress Z none = .ok Y := by
  obtain ⟨Z, f1, f2, _⟩ := compress_ok hb hY
  obtain ⟨P, e1, e2, _⟩ := decompress_ok hb f2
  have hp : linI.project b Y = .ok P := by simp only [BasI.project, linI, f1, bind, Except.bind, e1]
  obtain ⟨a, g1, _, g3⟩ := C91_zero_iff_fixed h hY e2 hp
  rw [g1]
  have : (Except.ok (Val.num a) : Except Err (Val K)) = .ok (.num 0) ↔ a = 0 :=
    ⟨fun e => by injection e with e; injection e, fun e => by rw [e]⟩
  rw [this, g3]
  constructor
  · rintro rfl
    exact ⟨Z, f2, e1⟩
  · rintro ⟨W, hW, hWY⟩
    obtain ⟨Y', _, g5, g6⟩ := C42_compress_decompress b V hb ho W c hW
    rw [hWY] at g5
    cases g5
    rw [f1] at g6
    cases g6
    rw [e1] at hWY
    exact Except.ok.inj hWY

omit [LinearOrder K] [IsStrictOrderedRing K] in
theorem zero_combination (V : Cols K) (hV : V.WF) {x : List K} (hx : x.length = V.n) :
    vsub x (vecMat V.n (replicate V.cols.length 0) V.cols) = x := by
  rw [← matVec_transpose _ _ _ hV]
  apply ext_getElem (by simp [matVec, transpose, hx])
  intro i _ _
  simp only [vsub, getElem_zipWith, matVec, getElem_map]
  rw [dot_comm', dot_replicate_zero, sub_zero]

/-- C91: for an orthonormal basis without weights, no other coordinates give a smaller error, and the relative error
is at most 1 (`nan` for zero states). -/
theorem C91_best {sqrt : K → K} (h : SquareRoot sqrt) {b : LinB K} {V : Cols K} (hb : b.Has V)
    (hw : b.weights = none) (ho : Orthonormal V none) {Y : Snap K} {c : Option Nat} (hY : Y.Shaped V.n c) :
    ∃ a rho, linI.projectionError sqrt b Y false = .ok (.num a) ∧ linI.projectionError sqrt b Y true = .ok rho ∧
      (∀ Z X D, Z.Shaped V.cols.length c → b.decompress Z none = .ok X → Y.minus X = .ok D → a ≤ D.norm sqrt) ∧
      ((Y.norm sqrt = 0 ∧ rho = .nan) ∨ ∃ x, rho = .num x ∧ 0 ≤ x ∧ x ≤ 1) := by
  obtain ⟨P, hp, hbest⟩ := C42_project_closest b V hb (by rw [hw]; exact ho)
    (by rw [hw]; exact (C42_weights_psd V.n [] (by simp)).1) Y c hY
  obtain ⟨Z0, f1, f2, _⟩ := compress_ok hb hY
  obtain ⟨P', e1, e2, _⟩ := decompress_ok hb f2
  have hp' : linI.project b Y = .ok P' := by simp only [BasI.project, linI, f1, bind, Except.bind, e1]
  rw [hp] at hp'
  cases hp'
  obtain ⟨D0, d1, d2, d3⟩ := minus_shaped hY e2
  obtain ⟨v1, v2⟩ := C91_value sqrt hp d1
  have hwd : D0.width = Y.width := Snap.width_of_cols (d2.cols.trans hY.cols.symm)
  rw [hw] at hbest
  have hn : ∀ x : List K, wnorm2 none x = sumSq x := fun x => (sumSq_eq_dot x).symm
  simp only [hn] at hbest
  -- compare with arbitrary coefficients for each column
  have hcmp : ∀ f : Nat → List K, (∀ j, (f j).length = V.cols.length) →
      D0.energy ≤ ((range Y.width).map fun j => sumSq (vsub (Y.column j) (vecMat V.n (f j) V.cols))).sum := by
    intro f hf
    rw [energy_columns d2, hwd]
    apply sum_le_sum
    intro j hj
    rw [d3 j (mem_range.1 hj)]
    exact hbest j (mem_range.1 hj) (f j) (hf j)
  have h0 : D0.energy ≤ Y.energy := by
    have := hcmp (fun _ => replicate V.cols.length 0) (by simp)
    rw [energy_columns hY]
    refine this.trans (le_of_eq ?_)
    congr 1
    apply map_congr_left
    intro j hj
    congr 1
    exact zero_combination V hb.wf (by rw [Snap.length_column, hY.len])
  refine ⟨_, _, v1, v2, ?_, ?_⟩
  · intro Z X D hZ hX hD
    rw [norm_energy]
    obtain ⟨X', x1, x2, x3⟩ := decompress_ok hb hZ
    rw [hX] at x1
    cases x1
    obtain ⟨D', y1, y2, y3⟩ := minus_shaped hY x2
    rw [hD] at y1
    cases y1
    apply sqrt_mono h (energy_nonneg _)
    refine (hcmp (fun j => Z.column j) (fun j => by rw [Snap.length_column, hZ.len])).trans (le_of_eq ?_)
    have hwD : D.width = Y.width := Snap.width_of_cols (y2.cols.trans hY.cols.symm)
    have hwZ : Z.width = Y.width := Snap.width_of_cols (hZ.cols.trans hY.cols.symm)
    rw [energy_columns y2, hwD]
    congr 1
    apply map_congr_left
    intro j hj
    have hj := mem_range.1 hj
    rw [y3 j hj, x3 j (by omega), matVec_transpose _ _ _ hb.wf]
  · rw [norm_energy]
    by_cases hz : sqrt Y.energy = 0
    · left
      have hy0 := (sqrt_eq_zero h (energy_nonneg Y)).1 hz
      have hd0 : D0.energy = 0 := le_antisymm (by rw [← hy0]; exact h0) (energy_nonneg _)
      rw [if_pos hz, if_pos ((sqrt_eq_zero h (energy_nonneg _)).2 hd0)]
      exact ⟨hz, rfl⟩
    · right
      rw [if_neg hz]
      have hpos : 0 < sqrt Y.energy := lt_of_le_of_ne (h _ (energy_nonneg Y)).1 (Ne.symm hz)
      refine ⟨_, rfl, div_nonneg (h _ (energy_nonneg _)).1 hpos.le, ?_⟩
      rw [div_le_one hpos]
      exact sqrt_mono h (energy_nonneg _) h0

/-! ### Multi-variable bases -/

omit [LinearOrder K] [IsStrictOrderedRing K] in
theorem energy_flatten_vec {ps qs : List (List K)} (h : ps.map length = qs.map length) :
    sumSq (vsub ps.flatten qs.flatten) = (zipWith (fun p q => sumSq (vsub p q)) ps qs).sum := by
  induction ps generalizing qs with
  | nil => simp [vsub, sumSq]
  | cons p ps ih =>
    cases qs with
    | nil => simp at h
    | cons q qs =>
      simp only [map_cons, cons.injEq] at h
      have : vsub (p ++ ps.flatten) (q ++ qs.flatten) = vsub p q ++ vsub ps.flatten qs.flatten :=
        zipWith_append h.1
      rw [flatten_cons, flatten_cons, this, sumSq_append, ih h.2, zipWith_cons_cons, sum_cons]

omit [LinearOrder K] [IsStrictOrderedRing K] in
theorem energy_flatten_mat {ps qs : List (List (List K))} (h : ps.map length = qs.map length) :
    ((zipWith vsub ps.flatten qs.flatten).map sumSq).sum =
      (zipWith (fun p q => ((zipWith vsub p q).map sumSq).sum) ps qs).sum := by
  induction ps generalizing qs with
  | nil => simp
  | cons p ps ih =>
    cases qs with
    | nil => simp at h
    | cons q qs =>
      simp only [map_cons, cons.injEq] at h
      rw [flatten_cons, flatten_cons, zipWith_append h.1, map_append, sum_append, ih h.2, zipWith_cons_cons,
        sum_cons]

omit [LinearOrder K] [IsStrictOrderedRing K] in
/-- The energy of a difference of joined arrays. -/
theorem energy_joined {c : Option Nat} {ns : List Nat} (hn : ns ≠ []) {Ps Qs : List (Snap K)} {Y P D : Snap K}
    (hY : Joined c ns Ps Y) (hP : Joined c ns Qs P) (hD : Y.minus P = .ok D) :
    ∃ Ds, Forall₂ (fun (pq : Snap K × Snap K) D => pq.1.minus pq.2 = .ok D) (zip Ps Qs) Ds ∧
      D.energy = (Ds.map Snap.energy).sum := by
  have hx := hY.concat
  have hy := hP.concat
  rcases shaped_parts_cases hY.parts with ⟨rfl, ps, rfl, h1⟩ | ⟨k, rfl, ps, rfl, h1, _⟩
  · rcases shaped_parts_cases hP.parts with ⟨_, qs, rfl, h2⟩ | ⟨_, h, _⟩
    · have hps : ps ≠ [] := by rintro rfl; exact hn (by simpa using h1.symm)
      have hqs : qs ≠ [] := by rintro rfl; exact hn (by simpa using h2.symm)
      rw [concat_vec ps hps] at hx
      rw [concat_vec qs hqs] at hy
      cases hx
      cases hy
      have hl : ps.map length = qs.map length := h1.trans h2.symm
      have hflat : ps.flatten.length = qs.flatten.length := by rw [length_flatten, length_flatten, hl]
      simp only [Snap.minus, if_pos hflat, Except.ok.injEq] at hD
      subst hD
      refine ⟨zipWith (fun p q => .vec (vsub p q)) ps qs, ?_, ?_⟩
      · have key : ∀ ps qs : List (List K), ps.map length = qs.map length →
            Forall₂ (fun (pq : Snap K × Snap K) D => pq.1.minus pq.2 = .ok D)
              (zip (ps.map (.vec)) (qs.map (.vec))) (zipWith (fun p q => .vec (vsub p q)) ps qs) := by
          intro ps
          induction ps with
          | nil => intro qs _; exact .nil
          | cons p ps ih =>
            intro qs hl
            cases qs with
            | nil => simp at hl
            | cons q qs =>
              simp only [map_cons, cons.injEq] at hl
              exact .cons (by simp only [Snap.minus, if_pos hl.1]) (ih qs hl.2)
        exact key ps qs hl
      · rw [map_zipWith]
        exact energy_flatten_vec hl
    · cases h
  · rcases shaped_parts_cases hP.parts with ⟨h, _⟩ | ⟨k', h, qs, rfl, h2, _⟩
    · cases h
    · cases h
      have hps : ps ≠ [] := by rintro rfl; exact hn (by simpa using h1.symm)
      have hqs : qs ≠ [] := by rintro rfl; exact hn (by simpa using h2.symm)
      rw [concat_mat k ps hps] at hx
      rw [concat_mat k qs hqs] at hy
      cases hx
      cases hy
      have hl : ps.map length = qs.map length := h1.trans h2.symm
      have hflat : ps.flatten.length = qs.flatten.length := by rw [length_flatten, length_flatten, hl]
      have hD' : (Snap.mat k ps.flatten).minus (.mat k qs.flatten) = .ok (.mat k (zipWith vsub ps.flatten qs.flatten)) := by
        simp [Snap.minus, hflat]
      rw [hD'] at hD
      cases hD
      refine ⟨zipWith (fun p q => .mat k (zipWith vsub p q)) ps qs, ?_, ?_⟩
      · have key : ∀ ps qs : List (List (List K)), ps.map length = qs.map length →
            Forall₂ (fun (pq : Snap K × Snap K) D => pq.1.minus pq.2 = .ok D)
              (zip (ps.map (.mat k)) (qs.map (.mat k))) (zipWith (fun p q => .mat k (zipWith vsub p q)) ps qs) := by
          intro ps
          induction ps with
          | nil => intro qs _; exact .nil
          | cons p ps ih =>
            intro qs hl
            cases qs with
            | nil => simp at hl
            | cons q qs =>
              simp only [map_cons, cons.injEq] at hl
              exact .cons (by simp [Snap.minus, hl.1]) (ih qs hl.2)
        exact key ps qs hl
      · rw [map_zipWith]
        exact energy_flatten_mat hl

/-- C91: the square of the error of a multi-variable basis is the sum of the squares of the errors of its bases for
their variables. -/
theorem C91_multi {sqrt : K → K} (h : SquareRoot sqrt) {I : BasI K S} {bs : List S} {ns rs : List Nat}
    (hw : AllWork I bs ns rs) (hne : bs ≠ []) (ha : rs.sum = ns.sum → rs = ns) {c : Option Nat} {Y : Snap K}
    {Ys : List (Snap K)} (hY : Joined c ns Ys Y) :
    ∃ a as, (multiBasI I).projectionError sqrt bs Y false = .ok (.num a) ∧ 0 ≤ a ∧
      Each3 (fun b Y' a' => I.projectionError sqrt b Y' false = .ok (.num a')) bs Ys as ∧
      a ^ 2 = (as.map fun a' => a' ^ 2).sum := by
  have hd := hw.dims hne
  obtain ⟨Qs, q1, q2⟩ := hw.compress hY.parts
  obtain ⟨Z, hZ⟩ := joined_of_parts q1 hd.ne.2
  obtain ⟨Ps, p1, p2⟩ := hw.decompress q1
  obtain ⟨P, hP⟩ := joined_of_parts p1 hd.ne.1
  obtain ⟨e1, e2⟩ := C46_project hd ha hY hZ hP q2 p2
  have e1 : (multiBasI I).project bs Y = .ok P := e1
  obtain ⟨D, d1, _⟩ := minus_shaped hY.whole hP.whole
  obtain ⟨Ds, f1, f2⟩ := energy_joined hd.ne.1 hY hP d1
  obtain ⟨s1, s2⟩ := h _ (energy_nonneg D)
  refine ⟨_, Ds.map fun D => sqrt D.energy, (C91_value sqrt e1 d1).1, s1, ?_, ?_⟩
  · have key : ∀ {bs : List S} {Ys Ps : List (Snap K)}, Each3 (fun b P P' => I.project b P = .ok P') bs Ys Ps →
        ∀ Ds, Forall₂ (fun (pq : Snap K × Snap K) D => pq.1.minus pq.2 = .ok D) (zip Ys Ps) Ds →
        Each3 (fun b Y' a' => I.projectionError sqrt b Y' false = .ok (.num a')) bs Ys
          (Ds.map fun D => sqrt D.energy) := by
      intro bs Ys Ps e
      induction e with
      | nil => intro Ds hf; cases hf; exact .nil
      | cons g _ ih =>
        intro Ds hf
        cases hf with
        | cons g1 g2 => exact .cons (C91_value sqrt g g1).1 (ih _ g2)
    exact key e2 Ds f1
  · rw [s2, f2, map_map]
    congr 1
    apply map_congr_left
    intro D _
    exact ((h _ (energy_nonneg D)).2).symm

/-! ### POD bases -/

/-- C91: the relative error of a fitted POD basis without weights for its training states is the root of
`residual_energy`, also after changes of the dimension (dense solver, as in C74). -/
theorem C91_pod_residual {sqrt : K → K} (h : SquareRoot sqrt) (ext : PodExt K) (s : Pod K) (hm : s.mos = false)
    (hW : s.lin.weights = none) (hc : s.crit.sane) (n k : Nat)
    (rows : List (List K)) (hY : (Snap.mat k rows).Shaped n (some k))
    (hsvd : ∀ Z L vals R, Z.Shaped n (some k) → ext.engine none Z = .ok (L, vals, R) →
      IsThinSvd n (columnsOf Z) L vals R)
    (s' : Pod K) (hfit : s.fit ext (.mat k rows) = (s', .ok ())) (os : List (PodCall K))
    (hos : ∀ o ∈ os, o.dimensionOnly ∧ o.sane) :
    ∃ x rho, (podI ext).projectionError sqrt (os.foldl (PodCall.run ext) s') (.mat k rows) true = .ok (.num x) ∧
      (os.foldl (PodCall.run ext) s').res = some rho ∧ 0 ≤ x ∧ x ^ 2 = rho := by
  obtain ⟨V, P, rho, hb, hV, hwt, hres, _, ht0, hrho⟩ := C74_best_basis ext s hm hc n k rows hY
    (by rw [hW]; exact trivial) hsvd s' hfit os hos
  rw [hW] at ht0 hrho
  obtain ⟨Z, f1, f2, _⟩ := compress_ok hb.has (by rw [hV]; exact hY)
  obtain ⟨P', g1, g2, _⟩ := decompress_ok hb.has f2
  have hp : linI.project (os.foldl (PodCall.run ext) s').lin (.mat k rows) = .ok P' := by
    simp only [BasI.project, linI, f1, bind, Except.bind, g1]
  have := hb.project
  rw [hp] at this
  cases this
  rw [hV] at g2
  obtain ⟨D, d1, d2, d3⟩ := minus_shaped hY g2
  have hwd : D.width = k := Snap.width_of_cols (Y := D) (Z := .mat k rows) (d2.cols.trans hY.cols.symm)
  have hn : ∀ x : List K, wnorm2 none x = sumSq x := fun x => (sumSq_eq_dot x).symm
  have hE : totalEnergy none (.mat k rows) = (Snap.mat k rows).energy := by
    rw [energy_columns hY, totalEnergy]
    simp only [hn]
  have hDE : squaredDistance none (.mat k rows) P = D.energy := by
    rw [energy_columns d2, squaredDistance, hwd]
    congr 1
    apply map_congr_left
    intro j hj
    rw [d3 j (mem_range.1 hj), hn]
  rw [hE] at ht0
  rw [hE, hDE] at hrho
  have hp' : (podI ext).project (os.foldl (PodCall.run ext) s') (.mat k rows) = .ok P := hp
  have hz : sqrt (Snap.mat k rows).energy ≠ 0 := by
    rw [ne_eq, sqrt_eq_zero h (energy_nonneg _)]
    exact ht0
  refine ⟨sqrt D.energy / sqrt (Snap.mat k rows).energy, rho, ?_, hres, ?_, ?_⟩
  · rw [(C91_value sqrt hp' d1).2, if_neg hz]
  · exact div_nonneg (h _ (energy_nonneg _)).1 (h _ (energy_nonneg _)).1
  · rw [div_pow, (h _ (energy_nonneg _)).2, (h _ (energy_nonneg _)).2, ← hrho]
    exact mul_div_cancel_right₀ _ ht0

/-! ### Weights -/

/-- One vector with weights 9/10 and 1/10. -/
def obliqueBasis : LinB K := ⟨none, some 2, some 1, some ⟨2, [[1, 1]]⟩, some (.diag [9 / 10, 1 / 10])⟩

/-- C91 fails with weights: the basis is orthonormal, but the relative error of a state is larger than 1, so that its
error is larger than that of zero coordinates. -/
theorem C91_weighted_false {sqrt : K → K} (h : SquareRoot sqrt) :
    (obliqueBasis (K := K)).Proper ⟨2, [[1, 1]]⟩ ∧ Orthonormal (K := K) ⟨2, [[1, 1]]⟩ (some (.diag [9 / 10, 1 / 10])) ∧
    ∃ a x X D, linI.projectionError sqrt (obliqueBasis (K := K)) (.vec [1, -1]) false = .ok (.num a) ∧
      linI.projectionError sqrt (obliqueBasis (K := K)) (.vec [1, -1]) true = .ok (.num x) ∧ 1 < x ∧
      (obliqueBasis (K := K)).decompress (.vec [0]) none = .ok X ∧ (Snap.vec [1, -1] : Snap K).minus X = .ok D ∧
      D.norm sqrt < a := by
  have hb : (obliqueBasis (K := K)).Proper ⟨2, [[1, 1]]⟩ :=
    { entries := rfl, wf := by simp [Cols.WF], fit := rfl, dims := ⟨rfl, rfl⟩ }
  have ho : Orthonormal (K := K) ⟨2, [[1, 1]]⟩ (some (.diag [9 / 10, 1 / 10])) := by
    intro i j hi hj
    have h1 : i = 0 := by simpa using hi
    have h2 : j = 0 := by simpa using hj
    subst h1 h2
    simp [wvec, dot]
    norm_num
  have hp : linI.project (obliqueBasis (K := K)) (.vec [1, -1]) = .ok (.vec [4 / 5, 4 / 5]) := by
    change Except.ok (Snap.vec _) = _
    simp [matVec, dot, transpose, range_succ]
    norm_num
  have hD : (Snap.vec [1, -1] : Snap K).minus (.vec [4 / 5, 4 / 5]) = .ok (.vec [1 / 5, - (9 / 5)]) := by
    simp [Snap.minus, vsub]
    norm_num
  have hX : (obliqueBasis (K := K)).decompress (.vec [0]) none = .ok (.vec [0, 0]) := by
    change Except.ok (Snap.vec _) = _
    simp [matVec, dot, transpose, range_succ]
  have hD0 : (Snap.vec [1, -1] : Snap K).minus (.vec [0, 0]) = .ok (.vec [1, -1]) := by
    simp [Snap.minus, vsub]
  have hlt : (Snap.vec [1, -1] : Snap K).energy < (Snap.vec [1 / 5, - (9 / 5)] : Snap K).energy := by
    simp [Snap.energy]
    norm_num
  have hpos : 0 < (Snap.vec [1, -1] : Snap K).energy := by
    simp [Snap.energy]
  have hsq : sqrt (Snap.vec [1, -1] : Snap K).energy < sqrt (Snap.vec [1 / 5, - (9 / 5)] : Snap K).energy := by
    refine lt_of_le_of_ne (sqrt_mono h hpos.le hlt.le) ?_
    intro he
    have h1 := (h _ hpos.le).2
    have h2 := (h _ (hpos.le.trans hlt.le)).2
    rw [he, h2] at h1
    exact absurd h1 (ne_of_gt hlt)
  have hne : sqrt (Snap.vec [1, -1] : Snap K).energy ≠ 0 := by
    rw [ne_eq, sqrt_eq_zero h hpos.le]
    exact hpos.ne'
  have hgt : 0 < sqrt (Snap.vec [1, -1] : Snap K).energy := lt_of_le_of_ne (h _ hpos.le).1 (Ne.symm hne)
  refine ⟨hb, ho, _, _, _, _, (C91_value sqrt hp hD).1, by rw [(C91_value sqrt hp hD).2, if_neg hne], ?_, hX, hD0, ?_⟩
  · rw [one_lt_div hgt]
    exact hsq
  · rw [norm_energy]
    exact hsq

end Ordered

/-! ### Examples -/

/-- `C91_best` and `C91_zero_iff` apply: real numbers, one vector in the plane. -/
example : ∃ a rho, linI.projectionError Real.sqrt (⟨none, some 2, some 1, some ⟨2, [[1, 0]]⟩, none⟩ : LinB ℝ)
      (.mat 2 [[3, 0], [4, 1]]) false = .ok (.num a) ∧
    linI.projectionError Real.sqrt (⟨none, some 2, some 1, some ⟨2, [[1, 0]]⟩, none⟩ : LinB ℝ)
      (.mat 2 [[3, 0], [4, 1]]) true = .ok rho ∧ ((Snap.mat 2 [[3, 0], [4, 1]] : Snap ℝ).norm Real.sqrt = 0 ∧ rho = .nan ∨
      ∃ x, rho = .num x ∧ 0 ≤ x ∧ x ≤ 1) := by
  obtain ⟨a, rho, h1, h2, _, h4⟩ := C91_best C54_real_sqrt (b := ⟨none, some 2, some 1, some ⟨2, [[1, 0]]⟩, none⟩)
    (V := ⟨2, [[1, 0]]⟩) ⟨rfl, by simp [Cols.WF], trivial⟩ rfl ((orthonormal_iff _ _).2 (by simp [wvec, dot, eye]))
    (Y := .mat 2 [[3, 0], [4, 1]]) (c := some 2) ⟨by simp [Snap.WF], rfl, rfl⟩
  exact ⟨a, rho, h1, h2, h4⟩

/-- The negation holds for the real numbers. -/
example := C91_weighted_false C54_real_sqrt

example : linI.projectionError sqrtEx (threeBasis [[0, 1, 0]]) (.mat 2 [[1, 0], [5, 6], [0, 2]]) false =
      .ok (.num 5) ∧
    linI.projectionError sqrtEx (threeBasis [[0, 1, 0]]) (.vec [0, 0, 0]) true = .ok .nan ∧
    linI.projectionError sqrtEx (threeBasis [[0, 1, 0]]) (.vec [0, 0]) true = .error .value := by decide +kernel

end Opinf
