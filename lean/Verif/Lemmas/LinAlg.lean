import Verif.Lemmas.KronJac
import Verif.Lemmas.Poly
import Verif.Model.Operators

/-!
# Elementary linear algebra on lists
-/

namespace Opinf

open List

variable {K : Type*}

@[simp] theorem length_vadd [Add K] (a b : List K) :
    (vadd a b).length = min a.length b.length := by simp [vadd]

@[simp] theorem length_vsub [Sub K] (a b : List K) :
    (vsub a b).length = min a.length b.length := by simp [vsub]

@[simp] theorem length_vsmul [Mul K] (c : K) (a : List K) : (vsmul c a).length = a.length := by
  simp [vsmul]

@[simp] theorem dot_nil_left [Semiring K] (b : List K) : dot [] b = 0 := by simp [dot]
@[simp] theorem dot_nil_right [Semiring K] (a : List K) : dot a [] = 0 := by simp [dot]
@[simp] theorem dot_cons [Semiring K] (x y : K) (a b : List K) :
    dot (x :: a) (y :: b) = x * y + dot a b := by simp [dot]

theorem dot_vadd_left [CommSemiring K] (a b z : List K) (h : a.length = b.length) :
    dot (vadd a b) z = dot a z + dot b z := by
  induction a generalizing b z with
  | nil => cases b with
    | nil => simp [vadd]
    | cons _ _ => simp at h
  | cons x a ih =>
    cases b with
    | nil => simp at h
    | cons y b =>
      cases z with
      | nil => simp
      | cons w z =>
        have := ih b z (by simpa using h)
        simp only [vadd] at this
        simp only [vadd, zipWith_cons_cons, dot_cons, this]
        ring

theorem dot_vadd_right [CommSemiring K] (z a b : List K) (h : a.length = b.length) :
    dot z (vadd a b) = dot z a + dot z b := by
  induction a generalizing b z with
  | nil => cases b with
    | nil => simp [vadd]
    | cons _ _ => simp at h
  | cons x a ih =>
    cases b with
    | nil => simp at h
    | cons y b =>
      cases z with
      | nil => simp
      | cons w z =>
        have := ih z b (by simpa using h)
        simp only [vadd] at this
        simp only [vadd, zipWith_cons_cons, dot_cons, this]
        ring

theorem dot_vsmul_left [CommSemiring K] (c : K) (a z : List K) :
    dot (vsmul c a) z = c * dot a z := by
  induction a generalizing z with
  | nil => simp [vsmul]
  | cons x a ih =>
    cases z with
    | nil => simp
    | cons w z =>
      have := ih z
      simp only [vsmul] at this
      simp only [vsmul, map_cons, dot_cons, this]
      ring

theorem dot_vsmul_right [CommSemiring K] (c : K) (z a : List K) :
    dot z (vsmul c a) = c * dot z a := by
  induction a generalizing z with
  | nil => simp [vsmul]
  | cons x a ih =>
    cases z with
    | nil => simp
    | cons w z =>
      have := ih z
      simp only [vsmul] at this
      simp only [vsmul, map_cons, dot_cons, this]
      ring

@[simp] theorem dot_replicate_zero [CommSemiring K] (n : Nat) (z : List K) :
    dot (replicate n 0) z = 0 := by
  induction n generalizing z with
  | zero => simp
  | succ n ih => cases z with
    | nil => simp
    | cons w z => simp [replicate_succ, ih]

theorem dot_comm' [CommSemiring K] (a b : List K) : dot a b = dot b a := by
  rw [dot, dot, zipWith_comm]
  congr 2
  funext x y
  exact mul_comm _ _

theorem matVec_vadd [CommSemiring K] (A : List (List K)) (a b : List K) (h : a.length = b.length) :
    matVec A (vadd a b) = vadd (matVec A a) (matVec A b) := by
  induction A with
  | nil => rfl
  | cons r A ih =>
    simp only [matVec, vadd] at ih
    simp only [matVec, map_cons, vadd, zipWith_cons_cons, ih]
    rw [← dot_vadd_right _ _ _ h]; rfl

theorem matVec_vsmul [CommSemiring K] (A : List (List K)) (c : K) (a : List K) :
    matVec A (vsmul c a) = vsmul c (matVec A a) := by
  simp only [matVec, vsmul, map_map]
  apply map_congr_left
  intro r _
  exact dot_vsmul_right c r a

theorem dot_foldl_vadd [CommSemiring K] (L : List (List K)) (acc z : List K)
    (h : ∀ l ∈ L, l.length = acc.length) :
    dot (L.foldl vadd acc) z = dot acc z + (L.map (dot · z)).sum := by
  induction L generalizing acc with
  | nil => simp
  | cons l L ih =>
    have hl := h l mem_cons_self
    rw [foldl_cons, ih (vadd acc l) (fun l' hl' => by
      rw [h l' (mem_cons_of_mem _ hl'), length_vadd, hl, min_self]),
      dot_vadd_left _ _ _ hl.symm, map_cons, sum_cons, add_assoc]

theorem length_foldl_vadd [Add K] (L : List (List K)) (acc : List K)
    (h : ∀ l ∈ L, l.length = acc.length) : (L.foldl vadd acc).length = acc.length := by
  induction L generalizing acc with
  | nil => rfl
  | cons l L ih =>
    have hl := h l mem_cons_self
    rw [foldl_cons, ih (vadd acc l) (fun l' hl' => by
      rw [h l' (mem_cons_of_mem _ hl'), length_vadd, hl, min_self]), length_vadd, hl, min_self]

theorem length_vecMat [Semiring K] (c : Nat) (h : List K) (M : List (List K))
    (hM : ∀ r ∈ M, r.length = c) : (vecMat c h M).length = c := by
  rw [vecMat, length_foldl_vadd, length_replicate]
  intro l hl
  rw [mem_iff_getElem] at hl
  obtain ⟨i, hi, rfl⟩ := hl
  rw [getElem_zipWith, length_vsmul, length_replicate, hM _ (getElem_mem _)]

/-- `(h @ M) @ z = h @ (M @ z)`. -/
theorem dot_vecMat [CommSemiring K] (c : Nat) (h : List K) (M : List (List K)) (z : List K)
    (hM : ∀ r ∈ M, r.length = c) : dot (vecMat c h M) z = dot h (matVec M z) := by
  rw [vecMat, dot_foldl_vadd, dot_replicate_zero, zero_add]
  · rw [dot, matVec, map_zipWith, zipWith_map_right]
    congr 1
    congr 1
    funext x r
    exact dot_vsmul_left x r z
  · intro l hl
    rw [mem_iff_getElem] at hl
    obtain ⟨i, hi, rfl⟩ := hl
    rw [getElem_zipWith, length_vsmul, length_replicate, hM _ (getElem_mem _)]

theorem matVec_matMul [CommSemiring K] (c : Nat) (A M : List (List K)) (z : List K)
    (hM : ∀ r ∈ M, r.length = c) : matVec (matMul c A M) z = matVec A (matVec M z) := by
  simp only [matVec, matMul, map_map]
  apply map_congr_left
  intro a _
  exact dot_vecMat c a M z hM

theorem matMul_rows [Semiring K] (c : Nat) (A M : List (List K))
    (hM : ∀ r ∈ M, r.length = c) : ∀ r ∈ matMul c A M, r.length = c := by
  intro r hr
  simp only [matMul, mem_map] at hr
  obtain ⟨a, -, rfl⟩ := hr
  exact length_vecMat c a M hM

theorem dot_kron [CommSemiring K] (a b x y : List K) (hb : b.length = y.length) :
    dot (kron a b) (kron x y) = dot a x * dot b y := by
  induction a generalizing x with
  | nil => simp [kron]
  | cons p a ih =>
    cases x with
    | nil => simp [kron]
    | cons q x =>
      have := ih x
      simp only [kron] at this
      simp only [kron, flatMap_cons]
      rw [dot_append _ _ _ _ (by simp [hb]), this, dot_cons]
      have h1 : dot (b.map (p * ·)) (y.map (q * ·)) = p * q * dot b y := by
        change dot (vsmul p b) (vsmul q y) = _
        rw [dot_vsmul_left, dot_vsmul_right, mul_assoc]
      rw [h1]; ring

theorem matVec_matKron [CommSemiring K] (A B : List (List K)) (x y : List K)
    (hB : ∀ b ∈ B, b.length = y.length) :
    matVec (matKron A B) (kron x y) = kron (matVec A x) (matVec B y) := by
  simp only [matVec, matKron, kron, map_flatMap, flatMap_map, map_map]
  congr 1
  funext a
  apply map_congr_left
  intro b hb
  exact dot_kron a b x y (hB b hb)

theorem matKron_rows [Mul K] (A B : List (List K)) (n m : Nat) (hA : ∀ a ∈ A, a.length = n)
    (hB : ∀ b ∈ B, b.length = m) : ∀ r ∈ matKron A B, r.length = n * m := by
  intro r hr
  simp only [matKron, mem_flatMap, mem_map] at hr
  obtain ⟨a, ha, b, hb, rfl⟩ := hr
  rw [length_kron, hA a ha, hB b hb]

theorem length_matKron [Mul K] (A B : List (List K)) :
    (matKron A B).length = A.length * B.length := by
  simp [matKron, length_flatMap]

theorem dot_delta [CommSemiring K] (i m : Nat) (u : List K) (hu : u.length = m) (hi : i < m) :
    dot ((range m).map fun j => if i = j then (1 : K) else 0) u = u.getD i 0 := by
  rw [dot_range m _ _ hu]
  rw [Finset.sum_eq_single i]
  · simp
  · intro b hb hbi
    simp [Ne.symm hbi]
  · intro h; simp [hi] at h

theorem matVec_eye [CommSemiring K] (m : Nat) (u : List K) (hu : u.length = m) :
    matVec (eye m) u = u := by
  simp only [matVec, eye, map_map]
  have : (range m).map (fun i => u.getD i 0) = u := by subst hu; exact map_range_getD u
  conv_rhs => rw [← this]
  apply map_congr_left
  intro i hi
  exact dot_delta i m u hu (by simpa using hi)

theorem eye_rows [Zero K] [One K] (m : Nat) : ∀ r ∈ eye (K := K) m, r.length = m := by
  intro r hr
  simp only [eye, mem_map] at hr
  obtain ⟨i, -, rfl⟩ := hr
  simp

theorem transpose_rows [Zero K] (c : Nat) (A : List (List K)) :
    ∀ r ∈ transpose c A, r.length = A.length := by
  intro r hr
  simp only [transpose, mem_map] at hr
  obtain ⟨i, -, rfl⟩ := hr
  simp

end Opinf
