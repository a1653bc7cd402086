import Verif.Props.Residuals
import Verif.Props.GalerkinCompose

/-!
# Invertible changes of coordinates act linearly on data vectors
-/

namespace Opinf

open List

variable {K : Type}

/-- `U` is the inverse of the square matrix `T`. -/
structure Inverts [Field K] (r : Nat) (T U : List (List K)) : Prop where
  isMat : IsMat r r T
  isMat' : IsMat r r U
  left : ∀ x : List K, x.length = r → matVec U (matVec T x) = x
  right : ∀ x : List K, x.length = r → matVec T (matVec U x) = x

theorem Inverts.symm [Field K] {r : Nat} {T U : List (List K)} (h : Inverts r T U) : Inverts r U T :=
  ⟨h.isMat', h.isMat, h.right, h.left⟩

section

variable [Field K] [DecidableEq K] [CharZero K]

omit [DecidableEq K] [CharZero K] in
theorem transpose_twice {r : Nat} {U : List (List K)} (hU : IsMat r r U) (y : List K) (hy : y.length = r) :
    matVec (transpose r (transpose r U)) y = matVec U y := by
  have hW : ∀ a ∈ transpose r U, a.length = r := by
    intro a ha
    obtain ⟨i, _, rfl⟩ := mem_map.1 ha
    simp [hU.1]
  rw [matVec_transpose r _ y hW]
  refine ext_dot (n := r) (length_vecMat r _ _ hW) (by rw [length_matVec, hU.1]) fun x hx => ?_
  rw [dot_vecMat r _ _ _ hW, matVec_transpose r _ _ hU.2, dot_comm', dot_vecMat r _ _ _ hU.2, dot_comm']

omit [DecidableEq K] [CharZero K] in
theorem recoord_gram {r : Nat} {T U : List (List K)} (h : Inverts r T U) :
    gram r (transpose r U) T = eye r := by
  refine ext_matVec (c := r) ?_ ?_ ?_ fun x hx => ?_
  · rw [(gram_isMat _ h.isMat).1, (eye_isMat r).1]
  · exact (gram_isMat _ h.isMat).2
  · exact (eye_isMat r).2
  · rw [gram_matVec _ h.isMat, transpose_twice h.isMat' _ (by rw [length_matVec, h.isMat.1]), h.left x hx,
      matVec_eye _ _ hx]

/-- Each entry of the data block at the new state is a linear function of the data block at the old state. -/
theorem recoord_row (o : OpKind) {r m : Nat} (hr : 0 < r) {T U : List (List K)} (h : Inverts r T U) {k : Nat}
    (hk : k < o.dim r m) : ∃ row : List K, row.length = o.dim r m ∧ ∀ q u : List K, q.length = r → u.length = m →
      dot row (o.dataCol q u) = (o.dataCol (matVec T q) u).getD k 0 := by
  have hW : IsMat r r (transpose r U) := by
    refine ⟨by simp [transpose], fun a ha => ?_⟩
    obtain ⟨i, _, rfl⟩ := mem_map.1 ha
    simp [h.isMat'.1]
  have hg := recoord_gram h
  obtain ⟨F, -, hF, hv, -⟩ := galerkin_iff (fun _ _ => .error .linalg) o (oneEntry r (o.dim r m) 0 k) r m r hr hr
    ⟨oneEntry_wf _ _ _ _, rfl, rfl⟩ T (transpose r U) h.isMat hW.1 (fun hne => absurd hg hne)
  obtain ⟨e, he⟩ : ∃ e : List K, e = 1 :: replicate (r - 1) 0 := ⟨_, rfl⟩
  have hel : e.length = r := by rw [he]; simp; omega
  have hFr : ∀ a ∈ F.rows, a.length = o.dim r m := fun a ha => by rw [hF.1.2 a ha, hF.2.2]
  refine ⟨vecMat (o.dim r m) (vecMat r e T) F.rows, length_vecMat _ _ _ hFr, fun q u hq hu => ?_⟩
  have hd : (o.dataCol (matVec T q) u).length = o.dim r m := by
    rw [dataCol_length, length_matVec, h.isMat.1, hu]
  have h1 := hv q u hq hu
  rw [hg, matVec_eye _ _ (hF.length_value q u)] at h1
  have hE : (o.value (oneEntry r (o.dim r m) 0 k) (matVec T q) u).length = r := by
    rw [OpKind.value, length_matVec, (oneEntry_wf _ _ _ _).1]
    rfl
  rw [transpose_twice h.isMat' _ hE] at h1
  rw [dot_vecMat _ _ _ _ hFr, dot_vecMat _ _ _ _ h.isMat.2]
  rw [show matVec F.rows (o.dataCol q u) = o.value F q u from rfl, h1, h.right _ hE, OpKind.value,
    dot_oneEntry _ _ hd hel hr hk, he]
  simp

omit [DecidableEq K] [CharZero K] in
theorem dataCol_no_input (o : OpKind) (h : o.hasInputs = false) (q u v : List K) : o.dataCol q u = o.dataCol q v := by
  cases o <;> simp_all [OpKind.hasInputs, OpKind.dataCol]

theorem recoord_row_ok (o : OpKind) {r m : Nat} (hr : 0 < r) {T U : List (List K)} (h : Inverts r T U) {k : Nat}
    (hk : k < o.dim r m) : ∃ row : List K, row.length = o.dim r m ∧ ∀ (q : List K) (u : Option (List K)), q.length = r →
      InputOK o m u → dot row (o.dataCol q (u.getD [])) = (o.dataCol (matVec T q) (u.getD [])).getD k 0 := by
  obtain ⟨row, h1, h2⟩ := recoord_row o hr h hk
  refine ⟨row, h1, fun q u hq hu => ?_⟩
  by_cases hin : o.hasInputs = true
  · obtain ⟨v, rfl, hv⟩ := hu hin
    exact h2 q v hq hv
  · have hin : o.hasInputs = false := by simpa using hin
    rw [dataCol_no_input o hin q _ (replicate m 0), dataCol_no_input o hin (matVec T q) _ (replicate m 0)]
    exact h2 q _ hq (by simp)

theorem recoord_stack (kinds : List OpKind) {r m : Nat} (hr : 0 < r) {T U : List (List K)} (h : Inverts r T U) {k : Nat}
    (hk : k < (kinds.map fun o => o.dim r m).sum) : ∃ row : List K, row.length = (kinds.map fun o => o.dim r m).sum ∧
      ∀ (q : List K) (u : Option (List K)), q.length = r → (∀ o ∈ kinds, InputOK o m u) →
        dot row (dataVector kinds q (u.getD [])) = (dataVector kinds (matVec T q) (u.getD [])).getD k 0 := by
  induction kinds generalizing k with
  | nil => simp at hk
  | cons o kinds ih =>
    rw [map_cons, sum_cons] at hk
    have hTq : ∀ q : List K, (matVec T q).length = r := fun q => by rw [length_matVec, h.isMat.1]
    have hl : ∀ (q : List K) (u : Option (List K)), q.length = r → (∀ a ∈ o :: kinds, InputOK a m u) →
        (o.dataCol q (u.getD [])).length = o.dim r m := fun q u hq hu => dataCol_length_ok hq (hu o mem_cons_self)
    by_cases hk1 : k < o.dim r m
    · obtain ⟨row, h1, h2⟩ := recoord_row_ok o hr h hk1
      refine ⟨row ++ replicate (kinds.map fun o => o.dim r m).sum 0, by simp [h1], fun q u hq hu => ?_⟩
      rw [dataVector, dataVector, flatMap_cons, flatMap_cons, dot_append _ _ _ _ (by rw [h1, hl q u hq hu]), dot_zeros,
        add_zero, h2 q u hq (hu o mem_cons_self), getD_eq_getElem?_getD, getD_eq_getElem?_getD,
        getElem?_append_left (by rw [hl _ u (hTq q) hu]; exact hk1)]
    · obtain ⟨row, h1, h2⟩ := ih (k := k - o.dim r m) (by omega)
      refine ⟨replicate (o.dim r m) 0 ++ row, by simp [h1], fun q u hq hu => ?_⟩
      have := h2 q u hq fun a ha => hu a (mem_cons_of_mem _ ha)
      rw [dataVector, dataVector, flatMap_cons, flatMap_cons, dot_append _ _ _ _ (by rw [hl q u hq hu]; simp), dot_zeros,
        zero_add, getD_eq_getElem?_getD, getElem?_append_right (by rw [hl _ u (hTq q) hu]; omega), hl _ u (hTq q) hu,
        ← getD_eq_getElem?_getD]
      exact this

/-- The data vector at the new state is a matrix times the data vector at the old state. -/
theorem recoord_features (kinds : List OpKind) {r m : Nat} (hr : 0 < r) {T U : List (List K)} (h : Inverts r T U) :
    ∃ L : List (List K), IsMat (kinds.map fun o => o.dim r m).sum (kinds.map fun o => o.dim r m).sum L ∧
      ∀ (q : List K) (u : Option (List K)), q.length = r → (∀ o ∈ kinds, InputOK o m u) →
        matVec L (dataVector kinds q (u.getD [])) = dataVector kinds (matVec T q) (u.getD []) := by
  obtain ⟨n, hn⟩ : ∃ n, n = (kinds.map fun o => o.dim r m).sum := ⟨_, rfl⟩
  have key : ∀ k : Nat, ∃ row : List K, k < n → row.length = n ∧
      ∀ (q : List K) (u : Option (List K)), q.length = r → (∀ o ∈ kinds, InputOK o m u) →
        dot row (dataVector kinds q (u.getD [])) = (dataVector kinds (matVec T q) (u.getD [])).getD k 0 := by
    intro k
    by_cases hk : k < n
    · obtain ⟨row, h1⟩ := recoord_stack kinds hr h (m := m) (k := k) (by rw [← hn]; exact hk)
      exact ⟨row, fun _ => by rw [hn]; exact h1⟩
    · exact ⟨[], fun h => absurd h hk⟩
  choose g hg using key
  rw [← hn]
  refine ⟨(range n).map g, ⟨by simp, fun row hrow => ?_⟩, fun q u hq hu => ?_⟩
  · obtain ⟨k, hk, rfl⟩ := mem_map.1 hrow
    exact (hg k (mem_range.1 hk)).1
  · have hl : (dataVector kinds (matVec T q) (u.getD [])).length = n := by
      rw [hn]
      exact dataVector_length kinds (by rw [length_matVec, h.isMat.1]) hu
    refine ext_getElem (by simp [hl]) fun k h1 h2 => ?_
    have hk : k < n := by rw [hl] at h2; exact h2
    have e := (hg k hk).2 q u hq hu
    rw [Opinf.getD_eq_getElem _ 0 h2] at e
    rw [← e]
    simp [matVec]

end

end Opinf
