import Verif.Lemmas.Kron

/-! Helper lemmas about `PolynomialOperator`. -/

namespace Opinf

open List

variable {K : Type*}

theorem polyDim_eq (p r : Nat) : polyDim p r = (monoms p r).length := by
  rw [length_monoms']; rfl

theorem length_kron [Mul K] (a b : List K) : (kron a b).length = a.length * b.length := by
  induction a with
  | nil => simp [kron]
  | cons x a ih =>
    simp only [kron, flatMap_cons, length_append, length_map, length_cons] at ih ⊢
    rw [ih]; ring

theorem kron_getD [MulZeroClass K] (x e : List K) (i a : Nat) (ha : a < e.length) :
    (kron x e).getD (i * e.length + a) 0 = x.getD i 0 * e.getD a 0 := by
  induction x generalizing i with
  | nil => simp [kron]
  | cons y x ih =>
    have hk : kron (y :: x) e = e.map (y * ·) ++ kron x e := rfl
    rw [hk]
    cases i with
    | zero =>
      rw [getD_eq_getElem?_getD, getElem?_append_left (by simpa using ha)]
      simp [ha]
    | succ i =>
      rw [getD_eq_getElem?_getD, getElem?_append_right (by simp only [length_map]; nlinarith)]
      rw [← getD_eq_getElem?_getD, length_map, show (i + 1) * e.length + a - e.length = i * e.length + a by
        rw [Nat.succ_mul]; omega, ih i]
      simp

theorem polyDim_mono (p : Nat) {i r : Nat} (h : i ≤ r) : polyDim p i ≤ polyDim p r := by
  rw [polyDim_eq, polyDim_eq]
  cases p with
  | zero => simp [monoms]
  | succ p => exact (monoms_prefix p h).length_le

theorem keptIndices_succ (r p : Nat) :
    keptIndices r (p + 1) = (range r).flatMap fun i =>
      (range (polyDim p (i + 1))).map fun a => i * polyDim p r + a := by
  rw [keptIndices]
  apply flatMap_congr
  intro i hi
  rw [mem_range] at hi
  have h1 := polyDim_mono p (show i + 1 ≤ r by omega)
  rw [take_take, Nat.min_eq_left h1]
  apply ext_getElem
  · simp only [length_take, length_drop, length_range, length_map]
    have : (i + 1) * polyDim p r ≤ r * polyDim p r := Nat.mul_le_mul_right _ hi
    rw [Nat.succ_mul] at this
    omega
  · intro j h1 h2
    simp

theorem expP_eq [CommSemiring K] (x : List K) (p : Nat) :
    expP x p = (monoms p x.length).map (mono x) := by
  match p with
  | 0 => simp [expP, monoms, mono]
  | 1 =>
    rw [expP, monoms_one, map_map]
    conv_lhs => rw [← map_range_getD x]
    apply map_congr_left
    intro i _
    simp [mono]
  | p + 2 =>
    have ih := expP_eq x (p + 1)
    rw [expP, keptIndices_succ, monoms, map_flatMap, map_flatMap]
    apply flatMap_congr
    intro i hi
    rw [mem_range] at hi
    have hD : polyDim (p + 1) x.length = (expP x (p + 1)).length := by
      rw [ih, polyDim_eq, length_map]
    have hle := polyDim_mono (p + 1) (show i + 1 ≤ x.length by omega)
    rw [map_map, map_map]
    rw [hD] at hle ⊢
    have hm : monoms (p + 1) (i + 1) = (monoms (p + 1) x.length).take (polyDim (p + 1) (i + 1)) := by
      rw [polyDim_eq, monoms_take p (by omega)]
    rw [hm]
    have : (expP x (p + 1)).take (polyDim (p + 1) (i + 1))
        = ((monoms (p + 1) x.length).take (polyDim (p + 1) (i + 1))).map (mono x) := by
      rw [ih, map_take]
    have h2 : ((monoms (p + 1) x.length).take (polyDim (p + 1) (i + 1))).map
        (mono x ∘ fun t => i :: t)
        = (((monoms (p + 1) x.length).take (polyDim (p + 1) (i + 1))).map (mono x)).map
            (x.getD i 0 * ·) := by
      rw [map_map]
      apply map_congr_left; intro l _; simp [mono]
    rw [h2, ← this, take_eq_range _ hle, map_map]
    apply map_congr_left
    intro a ha
    rw [mem_range] at ha
    simp only [Function.comp]
    rw [kron_getD _ _ _ _ (by omega)]

theorem length_matVec [Semiring K] (A : List (List K)) (x : List K) :
    (matVec A x).length = A.length := by simp [matVec]

end Opinf
