import Verif.Props.Post
import Verif.Lemmas.MonoFit
import Mathlib.Algebra.BigOperators.Group.List.Basic

/-!
# C54: the values of the error measures

The errors returned by `lp_error` and `Lp_error` are the documented sums and maxima over the entries of the data.
-/

namespace Opinf

open List

variable {K : Type}

/-! ### Specification -/

/-- Entry `i` of snapshot `j`. -/
def entry [Zero K] (A : List (List K)) (j i : Nat) : K := (A.getD j []).getD i 0

/-- The trapezoidal rule for the samples `z 0, z 1, …` at the `k` times `t 0, t 1, …`. -/
def trapezoids [Field K] (k : Nat) (t z : Nat → K) : K :=
  ∑ j ∈ Finset.range (k - 1), (t (j + 1) - t j) * (z j + z (j + 1)) / 2

/-! ### Proofs -/

section
variable [Field K] [LinearOrder K]

omit [LinearOrder K] in
theorem sum_map_getD {α : Type} (f : α → K) (d : α) (l : List α) :
    (l.map f).sum = ∑ i ∈ Finset.range l.length, f (l.getD i d) := by
  induction l with
  | nil => simp
  | cons x l ih => simp [Finset.sum_range_succ', ih, add_comm]

theorem trapz_value : ∀ (zs ts : List K), zs.length = ts.length →
    trapz zs ts = trapezoids ts.length (fun j => ts.getD j 0) (fun j => zs.getD j 0) := by
  intro zs
  induction zs with
  | nil =>
    intro ts h
    have : ts.length = 0 := by simpa using h.symm
    simp [trapz, trapezoids, this]
  | cons z0 zs ih =>
    intro ts h
    match zs, ts, h with
    | [], [t0], _ => simp [trapz, trapezoids]
    | z1 :: zs, t0 :: t1 :: ts, h =>
      have := ih (t1 :: ts) (by simpa using h)
      simp only [trapz, this, trapezoids, length_cons, Nat.add_sub_cancel]
      rw [Finset.sum_range_succ', add_comm]
      rfl

theorem powSum_value (pn : PNorm K) {n : Nat} {a b : List K} (ha : a.length = n) (hb : b.length = n) :
    powSum pn (vsub a b) = ∑ i ∈ Finset.range n, pn.pow |a.getD i 0 - b.getD i 0| := by
  rw [powSum, sum_map_getD _ 0]
  have hl : (vsub a b).length = n := by simp [vsub, ha, hb]
  rw [hl]
  refine Finset.sum_congr rfl fun i hi => ?_
  have hi := Finset.mem_range.1 hi
  rw [getD_eq_getElem (vsub a b) _ (by omega), getD_eq_getElem a _ (by omega), getD_eq_getElem b _ (by omega)]
  simp [vsub]

theorem powSum_value_single (pn : PNorm K) {n : Nat} {a : List K} (ha : a.length = n) :
    powSum pn a = ∑ i ∈ Finset.range n, pn.pow |a.getD i 0| := by
  rw [powSum, sum_map_getD _ 0, ha]

omit [LinearOrder K] in
theorem getD_subCols {n k : Nat} {A B : List (List K)} (hA : IsData n k A) (hB : IsData n k B) {j : Nat} (hj : j < k) :
    (subCols A B).getD j [] = vsub (A.getD j []) (B.getD j []) := by
  have h1 := hA.width
  have h2 := hB.width
  rw [getD_eq_getElem (subCols A B) _ (by simp [subCols]; omega), getD_eq_getElem A _ (by omega),
    getD_eq_getElem B _ (by omega)]
  simp [subCols]

omit [LinearOrder K] in
theorem IsData.column {n k : Nat} {A : List (List K)} (hA : IsData n k A) {j : Nat} (hj : j < k) :
    (A.getD j []).length = n := by
  have h1 := hA.width
  rw [getD_eq_getElem A _ (by omega)]
  exact hA.height _ (getElem_mem _)

theorem trapezoids_congr {k : Nat} {t z z' : Nat → K} (h : ∀ j < k, z j = z' j) :
    trapezoids k t z = trapezoids k t z' := by
  refine Finset.sum_congr rfl fun j hj => ?_
  have hj := Finset.mem_range.1 hj
  rw [h j (by omega), h (j + 1) (by omega)]

theorem getD_map_powSum (pn : PNorm K) (Z : List (List K)) {j : Nat} (hj : j < Z.length) :
    (Z.map (powSum pn)).getD j 0 = powSum pn (Z.getD j []) := by
  rw [getD_eq_getElem (Z.map (powSum pn)) _ (by simpa using hj), getD_eq_getElem Z _ hj]
  simp

variable [IsStrictOrderedRing K]

/-- C54: for finite `p`, `Lp_error` returns the root of the integral of `Σᵢ |Qtrue - Qapprox|ᵖ` by the trapezoidal
rule, and its quotient by the same expression for `Qtrue` alone. -/
theorem C54_Lp_value (p : PNorm K) (ts : List K) (n : Nat) (A B : List (List K)) (hA : IsData n ts.length A)
    (hB : IsData n ts.length B) :
    LpError (.fin p) (.times ts) (.mat n A) (.mat n B) =
      .ok (p.root (trapezoids ts.length (fun j => ts.getD j 0) fun j =>
          ∑ i ∈ Finset.range n, p.pow |entry A j i - entry B j i|),
        ratio (p.root (trapezoids ts.length (fun j => ts.getD j 0) fun j =>
          ∑ i ∈ Finset.range n, p.pow |entry A j i - entry B j i|))
        (p.root (trapezoids ts.length (fun j => ts.getD j 0) fun j => ∑ i ∈ Finset.range n, p.pow |entry A j i|))) := by
  have hS := hA.sub hB
  have e1 : trapz (A.map (powSum p)) ts = trapezoids ts.length (fun j => ts.getD j 0) fun j =>
      ∑ i ∈ Finset.range n, p.pow |entry A j i| := by
    rw [trapz_value _ _ (by rw [length_map, hA.width])]
    refine trapezoids_congr fun j hj => ?_
    rw [getD_map_powSum _ _ (by rw [hA.width]; exact hj), powSum_value_single _ (hA.column hj)]
    rfl
  have e2 : trapz ((subCols A B).map (powSum p)) ts = trapezoids ts.length (fun j => ts.getD j 0) fun j =>
      ∑ i ∈ Finset.range n, p.pow |entry A j i - entry B j i| := by
    rw [trapz_value _ _ (by rw [length_map, hS.width])]
    refine trapezoids_congr fun j hj => ?_
    rw [getD_map_powSum _ _ (by rw [hS.width]; exact hj), getD_subCols hA hB hj,
      powSum_value _ (hA.column hj) (hB.column hj)]
    rfl
  rw [LpError_eq ts rfl hA hB]
  simp only [absRel, LpNorm, e1, e2, bind, Except.bind, pure, Except.pure]

omit [IsStrictOrderedRing K] in
/-- C54: for finite `p`, `lp_error` returns for every snapshot the root of `Σᵢ |Qtrue - Qapprox|ᵖ`, and its quotient
by the same expression for `Qtrue` alone. -/
theorem C54_lp_value (p : PNorm K) (n k : Nat) (A B : List (List K)) (hA : IsData n k A) (hB : IsData n k B) :
    lpError (.fin p) false (.mat n A) (.mat n B) =
      .ok ((range k).map fun j => p.root (∑ i ∈ Finset.range n, p.pow |entry A j i - entry B j i|),
        (range k).map fun j => ratio (p.root (∑ i ∈ Finset.range n, p.pow |entry A j i - entry B j i|))
          (p.root (∑ i ∈ Finset.range n, p.pow |entry A j i|))) := by
  have hS := hA.sub hB
  have hm : ∀ Z : List (List K), Z.mapM (colNorm (.fin p)) = .ok (Z.map fun c => p.root (powSum p c)) := by
    intro Z
    induction Z with
    | nil => rfl
    | cons c Z ih => simp [mapM_cons, ih, colNorm, bind, Except.bind, pure, Except.pure]
  have e1 : (A.map fun c => p.root (powSum p c)) =
      (range k).map fun j => p.root (∑ i ∈ Finset.range n, p.pow |entry A j i|) := by
    refine ext_getElem (by simp [hA.width]) fun j h1 h2 => ?_
    have hj : j < k := by simpa [hA.width] using h1
    have hw := hA.width
    have hc := hA.column hj
    have : A.getD j [] = A[j]'(by omega) := getD_eq_getElem A _ (by omega)
    rw [getElem_map, getElem_map, getElem_range, ← this, powSum_value_single _ hc]
    rfl
  have e2 : ((subCols A B).map fun c => p.root (powSum p c)) =
      (range k).map fun j => p.root (∑ i ∈ Finset.range n, p.pow |entry A j i - entry B j i|) := by
    refine ext_getElem (by simp [hS.width]) fun j h1 h2 => ?_
    have hj : j < k := by simpa [hS.width] using h1
    have hw := hS.width
    have : (subCols A B).getD j [] = (subCols A B)[j]'(by omega) := getD_eq_getElem (subCols A B) _ (by omega)
    rw [getElem_map, getElem_map, getElem_range, ← this, getD_subCols hA hB hj,
      powSum_value _ (hA.column hj) (hB.column hj)]
    rfl
  have hsh : (Data.mat n A).shape = (Data.mat n B).shape := by simp [Data.shape, hA.width, hB.width]
  simp only [lpError, hsh, ne_eq, not_true_eq_false, if_false, hm, normData, Bool.false_eq_true, bind, Except.bind,
    pure, Except.pure, e1, e2, zipWith_map, Except.ok.injEq, Prod.mk.injEq, true_and]
  rw [zipWith_self]

/-- C54: with normalisation, `lp_error` divides by the largest norm of all snapshots of `Qtrue`. -/
theorem C54_lp_normalized (p : POrd K) (n k : Nat) (A B : List (List K)) (hA : IsData n k A) (hB : IsData n k B)
    (es : List K) (rs : List (Val K)) (h : lpError p true (.mat n A) (.mat n B) = .ok (es, rs)) :
    ∃ ds m, lpError p false (.mat n A) (.mat n B) = .ok (es, zipWith ratio es ds) ∧ A.mapM (colNorm p) = .ok ds ∧
      m ∈ ds ∧ (∀ d ∈ ds, d ≤ m) ∧ rs = es.map fun e => ratio e m := by
  have hsh : (Data.mat n A).shape = (Data.mat n B).shape := by simp [Data.shape, hA.width, hB.width]
  have hS := hA.sub hB
  have key : ∀ p : POrd K, p ≠ .bad → ∀ b, lpError p b (.mat n A) (.mat n B) = (do
      let ns ← A.mapM (colNorm p)
      let ns ← normData b ns
      let es ← (subCols A B).mapM (colNorm p)
      return (es, zipWith ratio es ns)) := by
    intro p hp b
    cases p with
    | bad => exact absurd rfl hp
    | fin pn => simp only [lpError, hsh, ne_eq, not_true_eq_false, if_false]
    | inf => simp only [lpError, hsh, ne_eq, not_true_eq_false, if_false]
  have hp : p ≠ .bad := by
    rintro rfl
    simp [lpError] at h
  rw [key p hp] at h
  rw [key p hp]
  cases h1 : A.mapM (colNorm p) with
  | error e => rw [h1] at h; simp [bind, Except.bind] at h
  | ok ds =>
    rw [h1] at h
    simp only [normData, bind, Except.bind, if_true, Bool.false_eq_true, if_false] at h ⊢
    cases h2 : maxOf ds with
    | error e => rw [h2] at h; simp at h
    | ok m =>
      rw [h2] at h
      cases h3 : (subCols A B).mapM (colNorm p) with
      | error e => rw [h3] at h; simp [pure, Except.pure] at h
      | ok es' =>
        rw [h3] at h
        simp only [pure, Except.pure, Except.ok.injEq, Prod.mk.injEq] at h ⊢
        obtain ⟨rfl, rfl⟩ := h
        obtain ⟨m1, m2⟩ := maxOf_spec h2
        refine ⟨ds, m, ⟨rfl, rfl⟩, rfl, m1, m2, ?_⟩
        have l1 := (mapM_ok_forall2.1 h1).length_eq
        have l2 := (mapM_ok_forall2.1 h3).length_eq
        have : ds.length = es'.length := by rw [← l1, ← l2, hA.width, hS.width]
        rw [this]
        clear * -
        induction es' with
        | nil => rfl
        | cons e es' ih => simp [replicate_succ, ih]

/-- C54: for `p = np.inf`, `Lp_error` returns the largest absolute difference of two entries. -/
theorem C54_Lp_inf_value (t : TimeArg K) (n k : Nat) (A B : List (List K)) (hA : IsData n k A) (hB : IsData n k B)
    (a : K) (ρ : Val K) (h : LpError (.inf : POrd K) t (.mat n A) (.mat n B) = .ok (a, ρ)) :
    (∃ j i, j < k ∧ i < n ∧ a = |entry A j i - entry B j i|) ∧
      ∀ j i, j < k → i < n → |entry A j i - entry B j i| ≤ a := by
  rw [LpError_inf_eq t hA hB] at h
  have hS := hA.sub hB
  simp only [absRel, bind, Except.bind, pure, Except.pure] at h
  cases h1 : supNorm A with
  | error e => rw [h1] at h; simp at h
  | ok d =>
    rw [h1] at h
    cases h2 : supNorm (subCols A B) with
    | error e => rw [h2] at h; simp at h
    | ok a' =>
      rw [h2] at h
      simp only [Except.ok.injEq, Prod.mk.injEq] at h
      obtain ⟨rfl, -⟩ := h
      simp only [supNorm, bind, Except.bind] at h2
      cases h3 : (subCols A B).mapM maxAbsOf with
      | error e => rw [h3] at h2; simp at h2
      | ok ms =>
        rw [h3] at h2
        have hf := mapM_ok_forall2.1 h3
        obtain ⟨m1, m2⟩ := maxOf_spec h2
        have hent : ∀ j i, j < k → i < n → ((subCols A B).getD j []).getD i 0 = entry A j i - entry B j i := by
          intro j i hj hi
          have ha := hA.column hj
          have hb := hB.column hj
          rw [getD_subCols hA hB hj, entry, entry, getD_eq_getElem (vsub _ _) _ (by rw [vsub, length_zipWith]; omega),
            getD_eq_getElem (A.getD j []) _ (by omega), getD_eq_getElem (B.getD j []) _ (by omega)]
          simp [vsub]
        have hcol : ∀ j (hj : j < k), ∃ v, v ∈ ms ∧ maxAbsOf ((subCols A B).getD j []) = .ok v := by
          intro j hj
          have hw := hS.width
          have hl := hf.length_eq
          have h4 := (forall₂_iff_get.1 hf).2 j (by omega) (by omega)
          refine ⟨_, get_mem ms ⟨j, by omega⟩, ?_⟩
          rw [getD_eq_getElem (subCols A B) _ (by omega)]
          simpa using h4
        constructor
        · obtain ⟨j, hj, e⟩ := mem_iff_getElem.1 m1
          have hw := hS.width
          have hl := hf.length_eq
          have h4 := (forall₂_iff_get.1 hf).2 j (by omega) hj
          simp only [get_eq_getElem] at h4
          rw [e] at h4
          obtain ⟨x1, x2⟩ := maxOf_spec h4
          obtain ⟨x, hx, hx'⟩ := mem_map.1 x1
          obtain ⟨i, hi, e'⟩ := mem_iff_getElem.1 hx
          have hjk : j < k := by omega
          have hn := hS.column hjk
          have h5 : (subCols A B).getD j [] = (subCols A B)[j]'(by omega) := getD_eq_getElem (subCols A B) _ (by omega)
          have hin : i < n := by rw [← hn, h5]; exact hi
          refine ⟨j, i, hjk, hin, ?_⟩
          rw [← hent j i hjk hin, h5, getD_eq_getElem _ _ hi, e', ← hx']
        · intro j i hj hi
          obtain ⟨v, v1, v2⟩ := hcol j hj
          obtain ⟨x1, x2⟩ := maxOf_spec v2
          rw [← hent j i hj hi]
          refine le_trans (x2 _ (mem_map.2 ⟨_, ?_, rfl⟩)) (m2 v v1)
          have hn := hS.column hj
          rw [getD_eq_getElem ((subCols A B).getD j []) _ (by omega)]
          exact getElem_mem _

end

/-- The hypotheses and the values: integral of a constant difference 2 over the interval from 0 to 3. -/
example : IsData 1 3 [[(3 : ℚ)], [3], [3]] ∧ IsData 1 3 [[(1 : ℚ)], [1], [5]] ∧
    LpError (.fin oneNorm) (.times [0, 1, 3]) (.mat 1 [[(3 : ℚ)], [3], [3]]) (.mat 1 [[1], [1], [5]]) =
      .ok (6, .num (2 / 3)) :=
  ⟨⟨rfl, by decide⟩, ⟨rfl, by decide⟩, by decide +kernel⟩

example : lpError (.inf : POrd ℚ) true (.mat 2 [[(1 : ℚ), 2], [0, 0]]) (.mat 2 [[1, 2], [0, 1]]) =
    .ok ([0, 1], [.num 0, .num (1 / 2)]) := by decide +kernel

end Opinf
