import Verif.Model.Affine
import Verif.Lemmas.MonoFit

/-!
# Helper lemmas for affine operators
-/

namespace Opinf

open List

variable {K : Type}

/-- `θ_0 y_0 + θ_1 y_1 + ...`, entry by entry, for vectors of length `r`. -/
def linComb [Semiring K] (r : Nat) (th : List K) (ys : List (List K)) : List K :=
  (range r).map fun i => (zipWith (fun t y => t * y.getD i 0) th ys).sum

theorem length_linComb [Semiring K] (r : Nat) (th : List K) (ys : List (List K)) :
    (linComb r th ys).length = r := by simp [linComb]

theorem getD_linComb [Semiring K] (r : Nat) (th : List K) (ys : List (List K)) (i : Nat)
    (hi : i < r) : (linComb r th ys).getD i 0 = (zipWith (fun t y => t * y.getD i 0) th ys).sum := by
  rw [linComb, getD_eq_getElem?_getD, getElem?_map, getElem?_range hi]; rfl

/-- `θ_0 y_0 + ...` is what the row-vector product computes. -/
theorem linComb_eq [CommSemiring K] (r : Nat) (th : List K) (ys : List (List K))
    (hy : ∀ y ∈ ys, y.length = r) : vecMat r th ys = linComb r th ys := by
  apply ext_getElem (by rw [length_vecMat r th ys hy, length_linComb])
  intro i h1 h2
  have hi : i < r := by rwa [length_linComb] at h2
  have e1 : (vecMat r th ys).getD i 0 = (linComb r th ys).getD i 0 := by
    rw [getD_linComb r th ys i hi, vecMat, getD_foldl_vadd]
    · have : (replicate r (0 : K)).getD i 0 = 0 := by
        simp only [getD_eq_getElem?_getD, getElem?_replicate]; split <;> rfl
      rw [this, zero_add, map_zipWith]
      congr 1
      clear h1 h2 this
      induction th generalizing ys with
      | nil => rfl
      | cons t th ih =>
        cases ys with
        | nil => rfl
        | cons y ys =>
          simp only [zipWith_cons_cons]
          rw [ih ys (fun y' hy' => hy y' (mem_cons_of_mem _ hy'))]
          congr 1
          have hyl := hy y mem_cons_self
          rw [getD_eq_getElem _ _ (by rw [length_vsmul, hyl]; exact hi),
            getD_eq_getElem _ _ (by rw [hyl]; exact hi)]
          simp [vsmul]
    · intro l hl
      rw [mem_iff_getElem] at hl
      obtain ⟨j, hj, rfl⟩ := hl
      rw [getElem_zipWith, length_vsmul, length_replicate, hy _ (getElem_mem _)]
  rwa [getD_eq_getElem _ _ h1, getD_eq_getElem _ _ h2] at e1

theorem scale_fits [CommSemiring K] {o : OpKind} {r m : Nat} {A : Mat K} (c : K) (h : o.Fits A r m) :
    o.Fits (A.scale c) r m := by
  obtain ⟨⟨h1, h2⟩, h3, h4⟩ := h
  refine ⟨⟨by simpa [Mat.scale] using h1, ?_⟩, h3, h4⟩
  intro row hrow
  simp only [Mat.scale, mem_map] at hrow
  obtain ⟨row', hr', rfl⟩ := hrow
  rw [length_vsmul]; exact h2 row' hr'

theorem plus_fits [CommSemiring K] {o : OpKind} {r m : Nat} {A B : Mat K} (hA : o.Fits A r m)
    (hB : o.Fits B r m) : o.Fits (A.plus B) r m := by
  obtain ⟨⟨a1, a2⟩, a3, a4⟩ := hA
  obtain ⟨⟨b1, b2⟩, b3, b4⟩ := hB
  refine ⟨⟨by simp [Mat.plus, a1, b1, a3, b3], ?_⟩, a3, a4⟩
  intro row hrow
  simp only [Mat.plus] at hrow ⊢
  rw [mem_iff_getElem] at hrow
  obtain ⟨i, hi, rfl⟩ := hrow
  rw [getElem_zipWith, length_vadd, a2 _ (getElem_mem _), b2 _ (getElem_mem _), a4, b4, min_self]

theorem matVec_scale [CommSemiring K] (c : K) (A : Mat K) (x : List K) :
    matVec (A.scale c).rows x = vsmul c (matVec A.rows x) := by
  simp only [matVec, Mat.scale, vsmul, map_map]
  apply map_congr_left
  intro row _
  exact dot_vsmul_left c row x

theorem matVec_plus [CommSemiring K] {o : OpKind} {r m : Nat} {A B : Mat K} (hA : o.Fits A r m)
    (hB : o.Fits B r m) (x : List K) :
    matVec (A.plus B).rows x = vadd (matVec A.rows x) (matVec B.rows x) := by
  have hl : ∀ (R S : List (List K)), (∀ a ∈ R, a.length = o.dim r m) →
      (∀ b ∈ S, b.length = o.dim r m) →
      matVec (zipWith vadd R S) x = vadd (matVec R x) (matVec S x) := by
    intro R
    induction R with
    | nil => intro S _ _; simp [matVec, vadd]
    | cons a R ih =>
      intro S h1 h2
      cases S with
      | nil => simp [matVec, vadd]
      | cons b S =>
        have := ih S (fun c hc => h1 c (mem_cons_of_mem _ hc)) (fun c hc => h2 c (mem_cons_of_mem _ hc))
        simp only [matVec, vadd, zipWith_cons_cons, map_cons] at this ⊢
        rw [this]
        congr 1
        exact dot_vadd_left a b x (by rw [h1 a mem_cons_self, h2 b mem_cons_self])
  exact hl A.rows B.rows (fun a ha => by rw [hA.1.2 a ha, hA.2.2])
    (fun b hb => by rw [hB.1.2 b hb, hB.2.2])

theorem foldl_plus [CommSemiring K] {o : OpKind} {r m : Nat} (Ts : List (Mat K)) (T : Mat K)
    (hT : o.Fits T r m) (hTs : ∀ A ∈ Ts, o.Fits A r m) (x : List K) :
    o.Fits (Ts.foldl Mat.plus T) r m ∧
    matVec (Ts.foldl Mat.plus T).rows x = (Ts.map fun A => matVec A.rows x).foldl vadd (matVec T.rows x) := by
  induction Ts generalizing T with
  | nil => exact ⟨hT, rfl⟩
  | cons A Ts ih =>
    have hA := hTs A mem_cons_self
    obtain ⟨h1, h2⟩ := ih (T.plus A) (plus_fits hT hA) (fun B hB => hTs B (mem_cons_of_mem _ hB))
    refine ⟨h1, ?_⟩
    rw [foldl_cons, h2, matVec_plus hT hA, map_cons, foldl_cons]

theorem vadd_zero_left' [CommSemiring K] (r : Nat) (a : List K) (h : a.length = r) :
    vadd (replicate r 0) a = a := by
  subst h
  induction a with
  | nil => rfl
  | cons x a ih => simp only [length_cons, replicate_succ, vadd, zipWith_cons_cons, zero_add] at ih ⊢; rw [ih]

/-- The weighted sum of the entries acts as the weighted sum of the actions. -/
theorem weightedSum_spec [CommSemiring K] {o : OpKind} {r m : Nat} (th : List K) (As : List (Mat K))
    (hA : ∀ A ∈ As, o.Fits A r m) (hne : th ≠ []) (hne' : As ≠ []) :
    o.Fits (weightedSum th As) r m ∧
    ∀ x, matVec (weightedSum th As).rows x = linComb r th (As.map fun A => matVec A.rows x) := by
  obtain ⟨t, th, rfl⟩ := exists_cons_of_ne_nil hne
  obtain ⟨A, As, rfl⟩ := exists_cons_of_ne_nil hne'
  have h0 := scale_fits (K := K) t (hA A mem_cons_self)
  have hs : ∀ B ∈ zipWith Mat.scale th As, o.Fits B r m := by
    intro B hB
    rw [mem_iff_getElem] at hB
    obtain ⟨i, hi, rfl⟩ := hB
    rw [getElem_zipWith]
    exact scale_fits _ (hA _ (mem_cons_of_mem _ (getElem_mem _)))
  have key := fun x => foldl_plus (zipWith Mat.scale th As) (A.scale t) h0 hs x
  refine ⟨(key []).1, fun x => ?_⟩
  have hl : ∀ y ∈ (A :: As).map (fun A => matVec A.rows x), y.length = r := by
    intro y hy
    obtain ⟨B, hB, rfl⟩ := mem_map.mp hy
    rw [length_matVec, (hA B hB).1.1, (hA B hB).2.1]
  change matVec ((zipWith Mat.scale th As).foldl Mat.plus (A.scale t)).rows x = _
  rw [(key x).2, ← linComb_eq r _ _ hl, vecMat, map_cons, zipWith_cons_cons, foldl_cons,
    vadd_zero_left' r _ (by rw [length_vsmul]; exact hl _ (by simp)), matVec_scale, map_zipWith]
  congr 1
  rw [zipWith_map_right]
  congr 1
  funext t B
  exact matVec_scale t B x

/-- The product with a block row and a stacked column is the sum over the blocks. -/
theorem dot_flatMap_chunks [CommSemiring K] (d : Nat) (x : List K) (hx : x.length = d) (th : List K)
    (row : List K) (hrow : row.length = th.length * d) :
    dot row (th.flatMap fun t => vsmul t x)
      = (zipWith (fun t i => t * dot ((row.drop (i * d)).take d) x) th (range th.length)).sum := by
  induction th generalizing row with
  | nil => simp [dot]
  | cons t th ih =>
    have hlen : (row.drop d).length = th.length * d := by
      rw [length_drop, hrow, length_cons, Nat.succ_mul]; omega
    have h1 : row = row.take d ++ row.drop d := (take_append_drop d row).symm
    have ht : (row.take d).length = d := by
      rw [length_take, hrow, length_cons, Nat.succ_mul]; omega
    rw [flatMap_cons]
    conv_lhs => rw [h1]
    rw [dot_append _ _ _ _ (by rw [ht, length_vsmul, hx]), dot_vsmul_right, ih _ hlen, length_cons,
      range_succ_eq_map, zipWith_cons_cons, sum_cons, Nat.zero_mul, drop_zero, zipWith_map_right]
    congr 3
    funext t i
    rw [drop_drop]
    congr 4
    rw [Nat.succ_mul, Nat.add_comm]

end Opinf
