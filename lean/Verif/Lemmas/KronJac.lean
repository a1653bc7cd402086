import Verif.Lemmas.Kron
import Mathlib.Algebra.BigOperators.Intervals
import Mathlib.Algebra.BigOperators.Ring.Finset

/-! Helper lemmas for the Jacobians of the Kronecker operators. -/

namespace Opinf

open List

variable {K : Type*}

theorem sum_range_list [AddCommMonoid K] (r : Nat) (f : Nat → K) :
    ((range r).map f).sum = ∑ i ∈ Finset.range r, f i := by
  induction r with
  | zero => simp
  | succ r ih => rw [List.range_succ, Finset.sum_range_succ]; simp [ih]

theorem dot_range [Semiring K] (r : Nat) (f : Nat → K) (q : List K) (hq : q.length = r) :
    dot ((range r).map f) q = ∑ i ∈ Finset.range r, f i * q.getD i 0 := by
  conv_lhs => rw [← map_range_getD q, hq]
  rw [dot_map_map, sum_range_list]

theorem contractLast_append [Semiring K] {r : Nat} (hr : 0 < r) (a b q : List K)
    (ha : r ∣ a.length) :
    contractLast r (a ++ b) q = contractLast r a q ++ contractLast r b q := by
  obtain ⟨m, hm⟩ := ha
  unfold contractLast
  have h1 : (a ++ b).length / r = m + b.length / r := by
    rw [length_append, hm, Nat.mul_add_div hr]
  have h2 : a.length / r = m := by rw [hm]; exact Nat.mul_div_cancel_left m hr
  rw [h1, h2, range_add, map_append]
  congr 1
  · apply map_congr_left
    intro i hi
    rw [mem_range] at hi
    have hle : i * r + r ≤ a.length := by
      rw [hm, mul_comm r m]
      calc i * r + r = (i + 1) * r := by ring
        _ ≤ m * r := Nat.mul_le_mul_right r hi
    rw [drop_append_of_le_length (by omega), take_append_of_le_length (by rw [length_drop]; omega)]
  · rw [map_map]
    apply map_congr_left
    intro i _
    simp only [Function.comp]
    have : (m + i) * r = a.length + i * r := by rw [hm]; ring
    rw [this, ← drop_drop, drop_left]

theorem contractLast_flatMap [Semiring K] {r : Nat} (hr : 0 < r) {α : Type*} (L : List α)
    (t : α → List K) (q : List K) (ht : ∀ a, r ∣ (t a).length) :
    contractLast r (L.flatMap t) q = L.flatMap fun a => contractLast r (t a) q := by
  induction L with
  | nil => simp [contractLast]
  | cons a L ih => rw [flatMap_cons, contractLast_append hr _ _ _ (ht a), ih, flatMap_cons]

theorem contractLast_map [Semiring K] {r : Nat} (hr : 0 < r) (f : Nat → K) (q : List K)
    (hq : q.length = r) :
    contractLast r ((range r).map f) q = [∑ k ∈ Finset.range r, f k * q.getD k 0] := by
  have h : ((range r).map f).length / r = 1 := by simp [Nat.div_self hr]
  unfold contractLast
  rw [h]
  simp only [range_one, map_cons, map_nil, Nat.zero_mul, drop_zero]
  rw [take_of_length_le (by simp), dot_range r f q hq]

theorem contract2 [Semiring K] {r : Nat} (hr : 0 < r) (f : Nat → Nat → K) (q : List K)
    (hq : q.length = r) :
    contractLast r ((range r).flatMap fun j => (range r).map (f j)) q
      = (range r).map fun j => ∑ k ∈ Finset.range r, f j k * q.getD k 0 := by
  rw [contractLast_flatMap hr _ _ _ (fun a => by simp)]
  simp only [contractLast_map hr _ _ hq]
  exact (map_eq_flatMap ..).symm

theorem contract3 [Semiring K] {r : Nat} (hr : 0 < r) (f : Nat → Nat → Nat → K) (q : List K)
    (hq : q.length = r) :
    contractLast r ((range r).flatMap fun i => (range r).flatMap fun j => (range r).map (f i j)) q
      = (range r).flatMap fun i => (range r).map fun j =>
          ∑ k ∈ Finset.range r, f i j k * q.getD k 0 := by
  rw [contractLast_flatMap hr _ _ _ (fun a => by simp [length_flatMap])]
  simp only [contract2 hr _ _ hq]

theorem contract4 [Semiring K] {r : Nat} (hr : 0 < r) (f : Nat → Nat → Nat → Nat → K) (q : List K)
    (hq : q.length = r) :
    contractLast r ((range r).flatMap fun i => (range r).flatMap fun j =>
        (range r).flatMap fun k => (range r).map (f i j k)) q
      = (range r).flatMap fun i => (range r).flatMap fun j => (range r).map fun k =>
          ∑ l ∈ Finset.range r, f i j k l * q.getD l 0 := by
  rw [contractLast_flatMap hr _ _ _ (fun a => by simp [length_flatMap])]
  simp only [contract3 hr _ _ hq]

theorem sum_tuples_succ [AddCommMonoid K] (p r : Nat) (F : List Nat → K) :
    ((tuples (p + 1) r).map F).sum
      = ∑ i ∈ Finset.range r, ((tuples p r).map fun l => F (i :: l)).sum := by
  rw [tuples, sum_map_flatMap, sum_range_list]
  simp only [map_map]
  rfl

theorem sum_tuples_zero [AddCommMonoid K] (r : Nat) (F : List Nat → K) :
    ((tuples 0 r).map F).sum = F [] := by simp [tuples]

/-- The action of a full row on `x ⊗ ... ⊗ x` as a sum over tuples. -/
theorem dot_kronPow [CommSemiring K] (p r : Nat) (h x : List K) (hh : h.length = r ^ p)
    (hx : x.length = r) :
    dot h (kronPow x p) = ((tuples p r).map fun l => h.getD (flat r l) 0 * mono x l).sum := by
  rw [kronPow_eq, hx]
  conv_lhs => rw [row_eq_tuples p r h hh]
  rw [dot_map_map]

theorem getD_vadd_vsmul [CommSemiring K] (q d : List K) (h : K) (hd : d.length = q.length) (i : Nat) :
    (vadd q (vsmul h d)).getD i 0 = q.getD i 0 + h * d.getD i 0 := by
  unfold vadd vsmul
  by_cases hi : i < q.length
  · have hi' : i < d.length := by omega
    simp [hi, hi']
  · have hi' : ¬ i < d.length := by omega
    simp only [not_lt] at hi hi'
    simp [hi, hi']

/-- One row of the Jacobian. -/
def jacRow [Semiring K] (k : Kind) (r : Nat) (g q : List K) : List K :=
  (fun t => contractLast r t q)^[k.deg - 1] (k.prejacRow r g)

theorem length_jacRow [CommRing K] (k : Kind) (r : Nat) (g q : List K) (hq : q.length = r) :
    (jacRow k r g q).length = r := by
  rcases Nat.eq_zero_or_pos r with rfl | hr
  · cases k <;> simp [jacRow, Kind.deg, Kind.prejacRow, contractLast]
  · cases k
    · simp only [jacRow, Kind.deg, Kind.prejacRow, Nat.reduceSub, Function.iterate_succ,
        Function.iterate_zero, Function.comp, id, contract2 hr _ _ hq]
      simp
    · simp only [jacRow, Kind.deg, Kind.prejacRow, Nat.reduceSub, Function.iterate_succ,
        Function.iterate_zero, Function.comp, id, contract2 hr _ _ hq, contract3 hr _ _ hq]
      simp
    · simp only [jacRow, Kind.deg, Kind.prejacRow, Nat.reduceSub, Function.iterate_succ,
        Function.iterate_zero, Function.comp, id, contract2 hr _ _ hq, contract3 hr _ _ hq,
        contract4 hr _ _ hq]
      simp

theorem sum_comm_14 [AddCommMonoid K] (r : Nat) (f : Nat → Nat → Nat → Nat → K) :
    ∑ j ∈ Finset.range r, ∑ k ∈ Finset.range r, ∑ l ∈ Finset.range r,
      ∑ m ∈ Finset.range r, f j k l m
    = ∑ m ∈ Finset.range r, ∑ k ∈ Finset.range r, ∑ l ∈ Finset.range r,
      ∑ j ∈ Finset.range r, f j k l m := by
  calc _ = ∑ j ∈ Finset.range r, ∑ k ∈ Finset.range r, ∑ m ∈ Finset.range r,
        ∑ l ∈ Finset.range r, f j k l m :=
        Finset.sum_congr rfl fun j _ => Finset.sum_congr rfl fun k _ => Finset.sum_comm
    _ = ∑ j ∈ Finset.range r, ∑ m ∈ Finset.range r, ∑ k ∈ Finset.range r,
        ∑ l ∈ Finset.range r, f j k l m :=
        Finset.sum_congr rfl fun j _ => Finset.sum_comm
    _ = ∑ m ∈ Finset.range r, ∑ j ∈ Finset.range r, ∑ k ∈ Finset.range r,
        ∑ l ∈ Finset.range r, f j k l m := Finset.sum_comm
    _ = ∑ m ∈ Finset.range r, ∑ k ∈ Finset.range r, ∑ j ∈ Finset.range r,
        ∑ l ∈ Finset.range r, f j k l m :=
        Finset.sum_congr rfl fun m _ => Finset.sum_comm
    _ = _ := Finset.sum_congr rfl fun m _ => Finset.sum_congr rfl fun k _ =>
        Finset.sum_comm

theorem sum_comm_13 [AddCommMonoid K] (r : Nat) (f : Nat → Nat → Nat → Nat → K) :
    ∑ j ∈ Finset.range r, ∑ k ∈ Finset.range r, ∑ l ∈ Finset.range r,
      ∑ m ∈ Finset.range r, f j k l m
    = ∑ l ∈ Finset.range r, ∑ k ∈ Finset.range r, ∑ j ∈ Finset.range r,
      ∑ m ∈ Finset.range r, f j k l m := by
  calc _ = ∑ j ∈ Finset.range r, ∑ l ∈ Finset.range r, ∑ k ∈ Finset.range r,
        ∑ m ∈ Finset.range r, f j k l m :=
        Finset.sum_congr rfl fun j _ => Finset.sum_comm
    _ = ∑ l ∈ Finset.range r, ∑ j ∈ Finset.range r, ∑ k ∈ Finset.range r,
        ∑ m ∈ Finset.range r, f j k l m := Finset.sum_comm
    _ = _ := Finset.sum_congr rfl fun m _ => Finset.sum_comm

theorem quartic_swap [CommRing K] (r : Nat) (G : List Nat → K) (q d : Nat → K) :
    ∑ j ∈ Finset.range r, (∑ k ∈ Finset.range r, (∑ l ∈ Finset.range r,
          (∑ m ∈ Finset.range r,
          (G [j, k, l, m] + G [k, j, l, m] + G [l, k, j, m] + G [m, k, l, j]) * q m)
          * q l) * q k) * d j
        = ∑ i ∈ Finset.range r, ∑ j ∈ Finset.range r, ∑ k ∈ Finset.range r,
          ∑ l ∈ Finset.range r,
            G [i, j, k, l] * (d i * q j * q k * q l + q i * d j * q k * q l
              + q i * q j * d k * q l + q i * q j * q k * d l) := by
  have h1 : ∑ j ∈ Finset.range r, (∑ k ∈ Finset.range r, (∑ l ∈ Finset.range r,
          (∑ m ∈ Finset.range r,
          (G [j, k, l, m] + G [k, j, l, m] + G [l, k, j, m] + G [m, k, l, j]) * q m)
          * q l) * q k) * d j
      = (∑ j ∈ Finset.range r, ∑ k ∈ Finset.range r, ∑ l ∈ Finset.range r,
          ∑ m ∈ Finset.range r, G [j, k, l, m] * (d j * q k * q l * q m))
        + (∑ j ∈ Finset.range r, ∑ k ∈ Finset.range r, ∑ l ∈ Finset.range r,
          ∑ m ∈ Finset.range r, G [k, j, l, m] * (q k * d j * q l * q m))
        + (∑ j ∈ Finset.range r, ∑ k ∈ Finset.range r, ∑ l ∈ Finset.range r,
          ∑ m ∈ Finset.range r, G [l, k, j, m] * (q l * q k * d j * q m))
        + (∑ j ∈ Finset.range r, ∑ k ∈ Finset.range r, ∑ l ∈ Finset.range r,
          ∑ m ∈ Finset.range r, G [m, k, l, j] * (q m * q k * q l * d j)) := by
    simp only [Finset.sum_mul, ← Finset.sum_add_distrib]
    refine Finset.sum_congr rfl fun i _ => Finset.sum_congr rfl fun j _ =>
      Finset.sum_congr rfl fun k _ => Finset.sum_congr rfl fun l _ => by ring
  rw [h1, sum_comm_14 r (fun j k l m => G [m, k, l, j] * (q m * q k * q l * d j)),
    sum_comm_13 r (fun j k l m => G [l, k, j, m] * (q l * q k * d j * q m)),
    Finset.sum_comm (f := fun j k => ∑ l ∈ Finset.range r,
          ∑ m ∈ Finset.range r, G [k, j, l, m] * (q k * d j * q l * q m))]
  simp only [← Finset.sum_add_distrib]
  refine Finset.sum_congr rfl fun i _ => Finset.sum_congr rfl fun j _ =>
      Finset.sum_congr rfl fun k _ => Finset.sum_congr rfl fun l _ => by ring

/-- Row-wise Taylor expansion: the contracted pre-Jacobian row is the directional derivative. -/
theorem jacRow_taylor_quad [CommRing K] (r : Nat) (g q d : List K)
    (hg : g.length = r ^ (Kind.quad).deg) (hq : q.length = r) (hd : d.length = r) :
    ∃ R2 R3 R4 : K, ∀ h : K,
      dot g (kronPow (vadd q (vsmul h d)) (Kind.quad).deg)
        = dot g (kronPow q (Kind.quad).deg) + h * dot (jacRow .quad r g q) d + h ^ 2 * R2 + h ^ 3 * R3
          + h ^ 4 * R4 := by
  rcases Nat.eq_zero_or_pos r with rfl | hr
  · refine ⟨0, 0, 0, fun h => ?_⟩
    have h1 : q = [] := length_eq_zero_iff.mp hq
    have h2 : d = [] := length_eq_zero_iff.mp hd
    subst h1 h2
    simp [vadd, vsmul, dot]
  set G : List Nat → K := fun l => g.getD (flat r l) 0 with hG
  have hx : ∀ h, (vadd q (vsmul h d)).length = r := by intro h; simp [vadd, vsmul, hq, hd]
  · refine ⟨∑ i ∈ Finset.range r, ∑ j ∈ Finset.range r, G [i, j] * (d.getD i 0 * d.getD j 0),
      0, 0, fun h => ?_⟩
    have hJ : jacRow .quad r g q = (range r).map fun j => ∑ k ∈ Finset.range r,
        (G [j, k] + G [k, j]) * q.getD k 0 := by
      simp only [jacRow, Kind.deg, Kind.prejacRow, Nat.reduceSub, Function.iterate_succ,
        Function.iterate_zero, Function.comp, id, contract2 hr _ _ hq]
      simp only [hG]
      apply map_congr_left; intro j _
      apply Finset.sum_congr rfl; intro k _
      rw [colIdx_eq_flat (by simp), colIdx_eq_flat (by simp)]
    rw [hJ, dot_range r _ d hd, dot_kronPow _ r _ _ hg (hx h), dot_kronPow _ r _ _ hg hq]
    simp only [Kind.deg, sum_tuples_succ, sum_tuples_zero, mono, map_cons, map_nil, prod_cons,
      prod_nil, mul_one, getD_vadd_vsmul q d h (by omega)]
    have hswap : ∑ j ∈ Finset.range r, (∑ k ∈ Finset.range r, (G [j, k] + G [k, j]) * q.getD k 0) * d.getD j 0
        = ∑ i ∈ Finset.range r, ∑ j ∈ Finset.range r,
            G [i, j] * (q.getD i 0 * d.getD j 0 + d.getD i 0 * q.getD j 0) := by
      simp only [Finset.sum_mul, add_mul, mul_add, Finset.sum_add_distrib]
      rw [add_comm]
      congr 1
      · rw [Finset.sum_comm]
        refine Finset.sum_congr rfl fun i _ => Finset.sum_congr rfl fun j _ => by ring
      · refine Finset.sum_congr rfl fun i _ => Finset.sum_congr rfl fun j _ => by ring
    rw [hswap]
    simp only [Finset.mul_sum, ← Finset.sum_add_distrib, mul_zero, add_zero]
    refine Finset.sum_congr rfl fun i _ => Finset.sum_congr rfl fun j _ => ?_
    simp only [hG]; ring

/-- Row-wise Taylor expansion: the contracted pre-Jacobian row is the directional derivative. -/
theorem jacRow_taylor_cubic [CommRing K] (r : Nat) (g q d : List K)
    (hg : g.length = r ^ (Kind.cubic).deg) (hq : q.length = r) (hd : d.length = r) :
    ∃ R2 R3 R4 : K, ∀ h : K,
      dot g (kronPow (vadd q (vsmul h d)) (Kind.cubic).deg)
        = dot g (kronPow q (Kind.cubic).deg) + h * dot (jacRow .cubic r g q) d + h ^ 2 * R2 + h ^ 3 * R3
          + h ^ 4 * R4 := by
  rcases Nat.eq_zero_or_pos r with rfl | hr
  · refine ⟨0, 0, 0, fun h => ?_⟩
    have h1 : q = [] := length_eq_zero_iff.mp hq
    have h2 : d = [] := length_eq_zero_iff.mp hd
    subst h1 h2
    simp [vadd, vsmul, dot]
  set G : List Nat → K := fun l => g.getD (flat r l) 0 with hG
  have hx : ∀ h, (vadd q (vsmul h d)).length = r := by intro h; simp [vadd, vsmul, hq, hd]
  · refine ⟨∑ i ∈ Finset.range r, ∑ j ∈ Finset.range r, ∑ k ∈ Finset.range r, G [i, j, k] *
        (q.getD i 0 * d.getD j 0 * d.getD k 0 + d.getD i 0 * q.getD j 0 * d.getD k 0
          + d.getD i 0 * d.getD j 0 * q.getD k 0),
      ∑ i ∈ Finset.range r, ∑ j ∈ Finset.range r, ∑ k ∈ Finset.range r, G [i, j, k] *
        (d.getD i 0 * d.getD j 0 * d.getD k 0), 0, fun h => ?_⟩
    have hJ : jacRow .cubic r g q = (range r).map fun j => ∑ k ∈ Finset.range r,
        (∑ l ∈ Finset.range r, (G [j, k, l] + G [k, j, l] + G [k, l, j]) * q.getD l 0)
          * q.getD k 0 := by
      simp only [jacRow, Kind.deg, Kind.prejacRow, Nat.reduceSub, Function.iterate_succ,
        Function.iterate_zero, Function.comp, id, contract3 hr _ _ hq, contract2 hr _ _ hq]
      simp only [hG]
      apply map_congr_left; intro j _
      apply Finset.sum_congr rfl; intro k _
      congr 1
      apply Finset.sum_congr rfl; intro l _
      rw [colIdx_eq_flat (by simp), colIdx_eq_flat (by simp), colIdx_eq_flat (by simp)]
    rw [hJ, dot_range r _ d hd, dot_kronPow _ r _ _ hg (hx h), dot_kronPow _ r _ _ hg hq]
    simp only [Kind.deg, sum_tuples_succ, sum_tuples_zero, mono, map_cons, map_nil, prod_cons,
      prod_nil, mul_one, getD_vadd_vsmul q d h (by omega)]
    have hswap : ∑ j ∈ Finset.range r, (∑ k ∈ Finset.range r, (∑ l ∈ Finset.range r,
          (G [j, k, l] + G [k, j, l] + G [k, l, j]) * q.getD l 0) * q.getD k 0) * d.getD j 0
        = ∑ i ∈ Finset.range r, ∑ j ∈ Finset.range r, ∑ k ∈ Finset.range r,
            G [i, j, k] * (d.getD i 0 * q.getD j 0 * q.getD k 0
              + q.getD i 0 * d.getD j 0 * q.getD k 0 + q.getD i 0 * q.getD j 0 * d.getD k 0) := by
      simp only [Finset.sum_mul, add_mul, mul_add, Finset.sum_add_distrib]
      congr 1
      · congr 1
        · refine Finset.sum_congr rfl fun i _ => Finset.sum_congr rfl fun j _ =>
            Finset.sum_congr rfl fun k _ => by ring
        · rw [Finset.sum_comm]
          refine Finset.sum_congr rfl fun i _ => Finset.sum_congr rfl fun j _ =>
            Finset.sum_congr rfl fun k _ => by ring
      · rw [Finset.sum_comm]
        refine Finset.sum_congr rfl fun i _ => ?_
        rw [Finset.sum_comm]
        refine Finset.sum_congr rfl fun j _ => Finset.sum_congr rfl fun k _ => by ring
    rw [hswap]
    simp only [Finset.mul_sum, ← Finset.sum_add_distrib, mul_zero, add_zero]
    refine Finset.sum_congr rfl fun i _ => Finset.sum_congr rfl fun j _ =>
      Finset.sum_congr rfl fun k _ => ?_
    simp only [hG]; ring

/-- Row-wise Taylor expansion: the contracted pre-Jacobian row is the directional derivative. -/
theorem jacRow_taylor_quartic [CommRing K] (r : Nat) (g q d : List K)
    (hg : g.length = r ^ (Kind.quartic).deg) (hq : q.length = r) (hd : d.length = r) :
    ∃ R2 R3 R4 : K, ∀ h : K,
      dot g (kronPow (vadd q (vsmul h d)) (Kind.quartic).deg)
        = dot g (kronPow q (Kind.quartic).deg) + h * dot (jacRow .quartic r g q) d + h ^ 2 * R2 + h ^ 3 * R3
          + h ^ 4 * R4 := by
  rcases Nat.eq_zero_or_pos r with rfl | hr
  · refine ⟨0, 0, 0, fun h => ?_⟩
    have h1 : q = [] := length_eq_zero_iff.mp hq
    have h2 : d = [] := length_eq_zero_iff.mp hd
    subst h1 h2
    simp [vadd, vsmul, dot]
  set G : List Nat → K := fun l => g.getD (flat r l) 0 with hG
  have hx : ∀ h, (vadd q (vsmul h d)).length = r := by intro h; simp [vadd, vsmul, hq, hd]
  · refine ⟨∑ i ∈ Finset.range r, ∑ j ∈ Finset.range r, ∑ k ∈ Finset.range r,
        ∑ l ∈ Finset.range r, G [i, j, k, l] *
        (q.getD i 0 * q.getD j 0 * d.getD k 0 * d.getD l 0
          + q.getD i 0 * d.getD j 0 * q.getD k 0 * d.getD l 0
          + q.getD i 0 * d.getD j 0 * d.getD k 0 * q.getD l 0
          + d.getD i 0 * q.getD j 0 * q.getD k 0 * d.getD l 0
          + d.getD i 0 * q.getD j 0 * d.getD k 0 * q.getD l 0
          + d.getD i 0 * d.getD j 0 * q.getD k 0 * q.getD l 0),
      ∑ i ∈ Finset.range r, ∑ j ∈ Finset.range r, ∑ k ∈ Finset.range r,
        ∑ l ∈ Finset.range r, G [i, j, k, l] *
        (q.getD i 0 * d.getD j 0 * d.getD k 0 * d.getD l 0
          + d.getD i 0 * q.getD j 0 * d.getD k 0 * d.getD l 0
          + d.getD i 0 * d.getD j 0 * q.getD k 0 * d.getD l 0
          + d.getD i 0 * d.getD j 0 * d.getD k 0 * q.getD l 0),
      ∑ i ∈ Finset.range r, ∑ j ∈ Finset.range r, ∑ k ∈ Finset.range r,
        ∑ l ∈ Finset.range r, G [i, j, k, l] *
        (d.getD i 0 * d.getD j 0 * d.getD k 0 * d.getD l 0), fun h => ?_⟩
    have hJ : jacRow .quartic r g q = (range r).map fun j => ∑ k ∈ Finset.range r,
        (∑ l ∈ Finset.range r, (∑ m ∈ Finset.range r,
          (G [j, k, l, m] + G [k, j, l, m] + G [l, k, j, m] + G [m, k, l, j]) * q.getD m 0)
            * q.getD l 0) * q.getD k 0 := by
      simp only [jacRow, Kind.deg, Kind.prejacRow, Nat.reduceSub, Function.iterate_succ,
        Function.iterate_zero, Function.comp, id, contract4 hr _ _ hq, contract3 hr _ _ hq,
        contract2 hr _ _ hq]
      simp only [hG]
      apply map_congr_left; intro j _
      apply Finset.sum_congr rfl; intro k _
      congr 1
      apply Finset.sum_congr rfl; intro l _
      congr 1
      apply Finset.sum_congr rfl; intro m _
      rw [colIdx_eq_flat (by simp), colIdx_eq_flat (by simp), colIdx_eq_flat (by simp),
        colIdx_eq_flat (by simp)]
    rw [hJ, dot_range r _ d hd, dot_kronPow _ r _ _ hg (hx h), dot_kronPow _ r _ _ hg hq]
    simp only [Kind.deg, sum_tuples_succ, sum_tuples_zero, mono, map_cons, map_nil, prod_cons,
      prod_nil, mul_one, getD_vadd_vsmul q d h (by omega)]
    rw [quartic_swap r G (fun i => q.getD i 0) (fun i => d.getD i 0)]
    simp only [Finset.mul_sum, ← Finset.sum_add_distrib]
    refine Finset.sum_congr rfl fun i _ => Finset.sum_congr rfl fun j _ =>
      Finset.sum_congr rfl fun k _ => Finset.sum_congr rfl fun l _ => ?_
    simp only [hG]; ring

/-- Row-wise Taylor expansion: the contracted pre-Jacobian row is the directional derivative. -/
theorem jacRow_taylor [CommRing K] (k : Kind) (r : Nat) (g q d : List K)
    (hg : g.length = r ^ k.deg) (hq : q.length = r) (hd : d.length = r) :
    ∃ R2 R3 R4 : K, ∀ h : K,
      dot g (kronPow (vadd q (vsmul h d)) k.deg)
        = dot g (kronPow q k.deg) + h * dot (jacRow k r g q) d + h ^ 2 * R2 + h ^ 3 * R3
          + h ^ 4 * R4 := by
  cases k
  · exact jacRow_taylor_quad r g q d hg hq hd
  · exact jacRow_taylor_cubic r g q d hg hq hd
  · exact jacRow_taylor_quartic r g q d hg hq hd

end Opinf
