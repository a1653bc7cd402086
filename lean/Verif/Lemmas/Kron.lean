import Verif.Model.Kron
import Verif.Lemmas.Tuples
import Mathlib.Algebra.CharZero.Defs
import Mathlib.Algebra.Order.Group.Nat
import Mathlib.Tactic.FieldSimp

/-! Helper lemmas about the Kronecker operators. -/

namespace Opinf

open List

variable {K : Type*}

theorem monoms_one (r : Nat) : monoms 1 r = (range r).map fun i => [i] := by
  simp only [monoms, map_cons, map_nil]
  exact (map_eq_flatMap ..).symm

theorem monoms_two (r : Nat) :
    monoms 2 r = (range r).flatMap fun i => (range (i + 1)).map fun j => [i, j] := by
  rw [monoms]
  apply flatMap_congr; intro i _
  rw [monoms_one, map_map]; rfl

theorem monoms_three (r : Nat) :
    monoms 3 r = (range r).flatMap fun i => (range (i + 1)).flatMap fun j =>
      (range (j + 1)).map fun k => [i, j, k] := by
  rw [monoms]
  apply flatMap_congr; intro i _
  rw [monoms_two, map_flatMap]
  apply flatMap_congr; intro j _
  rw [map_map]; rfl

theorem monoms_four (r : Nat) :
    monoms 4 r = (range r).flatMap fun i => (range (i + 1)).flatMap fun j =>
      (range (j + 1)).flatMap fun k => (range (k + 1)).map fun l => [i, j, k, l] := by
  rw [monoms]
  apply flatMap_congr; intro i _
  rw [monoms_three, map_flatMap]
  apply flatMap_congr; intro j _
  rw [map_flatMap]
  apply flatMap_congr; intro k _
  rw [map_map]; rfl

theorem indices_eq (k : Kind) (r : Nat) : k.indices r = monoms k.deg r := by
  cases k
  · exact (monoms_two r).symm
  · exact (monoms_three r).symm
  · exact (monoms_four r).symm

theorem colIdx_eq_flat {r : Nat} {l : List Nat} (h : l.length = 2 ∨ l.length = 3 ∨ l.length = 4) :
    colIdx r l = flat r l := by
  match l, h with
  | [a, b], _ => simp [colIdx, flat]
  | [a, b, c], _ => simp [colIdx, flat]; ring
  | [a, b, c, d], _ => simp [colIdx, flat]; ring
  | [], h => simp at h
  | [_], h => simp at h
  | _ :: _ :: _ :: _ :: _ :: _, h => simp at h

theorem deg_cases (k : Kind) : k.deg = 2 ∨ k.deg = 3 ∨ k.deg = 4 := by cases k <;> simp [Kind.deg]

theorem deg_pos (k : Kind) : 0 < k.deg := by cases k <;> simp [Kind.deg]

theorem perms_pair (i j : Nat) :
    (permSet [i, j]) = if i = j then [[i, j]] else [[i, j], [j, i]] := by
  have h : [i, j].permutations' = [[i, j], [j, i]] := rfl
  rw [permSet, h]
  split
  · next h => subst h; simp
  · next h =>
    rw [dedup_eq_self]
    simp [h]

theorem compressRow_eq [AddCommMonoid K] (k : Kind) (r : Nat) (h : List K) :
    k.compressRow r h = (monoms k.deg r).map fun l =>
      ((permSet l).map fun t => h.getD (flat r t) 0).sum := by
  have key : ∀ l : List Nat, (l.length = 2 ∨ l.length = 3 ∨ l.length = 4) →
      ((permSet l).map fun t => h.getD (colIdx r t) 0).sum
        = ((permSet l).map fun t => h.getD (flat r t) 0).sum := by
    intro l hl
    congr 1
    apply map_congr_left
    intro t ht
    rw [mem_permSet] at ht
    rw [colIdx_eq_flat (by rw [ht.length_eq]; exact hl)]
  cases k
  · simp only [Kind.compressRow, Kind.deg, monoms_two, map_flatMap, map_map]
    apply flatMap_congr; intro i _
    apply map_congr_left; intro j _
    simp only [Function.comp]
    rw [perms_pair]
    split
    · simp [flat]
    · simp [flat]
  · simp only [Kind.compressRow, Kind.deg, monoms_three, map_flatMap, map_map]
    apply flatMap_congr; intro i _
    apply flatMap_congr; intro j _
    apply map_congr_left; intro l _
    rw [Function.comp_apply, key [i, j, l] (by simp)]
  · simp only [Kind.compressRow, Kind.deg, monoms_four, map_flatMap, map_map]
    apply flatMap_congr; intro i _
    apply flatMap_congr; intro j _
    apply flatMap_congr; intro l _
    apply map_congr_left; intro m _
    rw [Function.comp_apply, key [i, j, l, m] (by simp)]

theorem length_monoms' (p r : Nat) : (monoms p r).length = if p = 0 then 1 else (r + p - 1).choose p := by
  cases p with
  | zero => simp [monoms]
  | succ p =>
    cases r with
    | zero => simp [monoms]
    | succ r =>
      rw [length_monoms]
      simp only [Nat.add_eq_zero_iff, one_ne_zero, and_false, if_false]
      congr 1
      omega

theorem two_mul_choose_two (r : Nat) : 2 * (r + 1).choose 2 = r * (r + 1) := by
  induction r with
  | zero => rfl
  | succ r ih => rw [Nat.choose_succ_succ, Nat.choose_one_right]; ring_nf at ih ⊢; omega

theorem six_mul_choose_three (r : Nat) : 6 * (r + 2).choose 3 = r * (r + 1) * (r + 2) := by
  induction r with
  | zero => rfl
  | succ r ih =>
    have h2 := two_mul_choose_two (r + 1)
    rw [show r + 1 + 2 = (r + 2) + 1 from rfl, Nat.choose_succ_succ]
    have : 6 * ((r + 2).choose 2 + (r + 2).choose (Nat.succ 2))
        = 3 * (2 * (r + 1 + 1).choose 2) + 6 * (r + 2).choose 3 := by ring
    rw [this, h2, ih]; ring

theorem twentyfour_mul_choose_four (r : Nat) :
    24 * (r + 3).choose 4 = r * (r + 1) * (r + 2) * (r + 3) := by
  induction r with
  | zero => rfl
  | succ r ih =>
    have h2 := six_mul_choose_three (r + 1)
    rw [show r + 1 + 3 = (r + 3) + 1 from rfl, Nat.choose_succ_succ]
    have : 24 * ((r + 3).choose 3 + (r + 3).choose (Nat.succ 3))
        = 4 * (6 * (r + 1 + 2).choose 3) + 24 * (r + 3).choose 4 := by ring
    rw [this, h2, ih]; ring

theorem dim_eq_choose (k : Kind) (r : Nat) : k.dim r = (r + k.deg - 1).choose k.deg := by
  cases k
  · have := two_mul_choose_two r
    simp only [Kind.dim, Kind.deg]
    show _ = (r + 1).choose 2
    omega
  · have := six_mul_choose_three r
    simp only [Kind.dim, Kind.deg]
    show _ = (r + 2).choose 3
    omega
  · have := twentyfour_mul_choose_four r
    simp only [Kind.dim, Kind.deg]
    show _ = (r + 3).choose 4
    omega

theorem dim_eq_length (k : Kind) (r : Nat) : k.dim r = (monoms k.deg r).length := by
  rw [dim_eq_choose, length_monoms']
  have := deg_pos k
  split
  · omega
  · rfl

/-! ### ckron -/

theorem take_eq_range [Zero K] (q : List K) {i : Nat} (h : i ≤ q.length) :
    q.take i = (range i).map fun j => q.getD j 0 := by
  apply ext_getElem
  · simp [h]
  · intro j h1 h2
    simp at h1
    simp [h1.2]

theorem ckron2_eq [CommSemiring K] (q : List K) :
    ckron2 q = (monoms 2 q.length).map (mono q) := by
  rw [ckron2, monoms_two, map_flatMap]
  apply flatMap_congr; intro i hi
  rw [mem_range] at hi
  rw [take_eq_range q (by omega), map_map, map_map]
  apply map_congr_left; intro j _
  simp [mono]

theorem ckron_step [CommSemiring K] (q : List K) (p : Nat) (c : List K)
    (hc : c = (monoms (p + 1) q.length).map (mono q)) :
    ((range q.length).flatMap fun i =>
      (c.take (Nat.choose (i + (p + 1)) (p + 1))).map (q.getD i 0 * ·))
      = (monoms (p + 2) q.length).map (mono q) := by
  rw [monoms, map_flatMap]
  apply flatMap_congr; intro i hi
  rw [mem_range] at hi
  rw [hc, ← map_take, ← length_monoms, monoms_take p (by omega), map_map, map_map]
  apply map_congr_left; intro l _
  simp [mono]

theorem ckron3_eq [CommSemiring K] (q : List K) :
    ckron3 q = (monoms 3 q.length).map (mono q) := ckron_step q 1 _ (ckron2_eq q)

theorem ckron4_eq [CommSemiring K] (q : List K) :
    ckron4 q = (monoms 4 q.length).map (mono q) := ckron_step q 2 _ (ckron3_eq q)

theorem ckron_eq [CommSemiring K] (k : Kind) (q : List K) :
    k.ckron q = (monoms k.deg q.length).map (mono q) := by
  cases k
  · exact ckron2_eq q
  · exact ckron3_eq q
  · exact ckron4_eq q

/-! ### compression -/

/-- Compressed row acting on the compressed product = full row acting on the full product. -/
theorem dot_compress [CommSemiring K] (p r : Nat) (h q : List K) (hh : h.length = r ^ p)
    (hq : q.length = r) :
    dot ((monoms p r).map fun l => ((permSet l).map fun t => h.getD (flat r t) 0).sum)
        ((monoms p r).map (mono q)) = dot h (kronPow q p) := by
  rw [kronPow_eq, hq]
  conv_rhs => rw [row_eq_tuples p r h hh]
  rw [dot_map_map, dot_map_map, ← sum_monoms_perms]
  congr 1
  apply map_congr_left; intro l _
  rw [← sum_map_mul_right']
  congr 1
  apply map_congr_left; intro t ht
  rw [mem_permSet] at ht
  rw [mono_perm q ht]

/-! ### searches for the dimension -/

theorem find?_range {n a : Nat} {P : Nat → Bool} (ha : a < n) (hP : P a = true)
    (huniq : ∀ b, b < n → P b = true → b = a) : (range n).find? P = some a := by
  cases h : (range n).find? P with
  | none =>
    rw [find?_eq_none] at h
    exact absurd hP (h a (mem_range.mpr ha))
  | some b =>
    have h1 := find?_some h
    have h2 := mem_of_find?_eq_some h
    rw [huniq b (mem_range.mp h2) h1]

theorem exactRoot_pow {p : Nat} (hp : p ≠ 0) (r : Nat) : exactRoot p (r ^ p) = some r := by
  apply find?_range
  · exact Nat.lt_succ_of_le (Nat.le_self_pow hp r)
  · simp
  · intro b _ hb
    simp only [decide_eq_true_eq] at hb
    exact Nat.pow_left_injective hp hb

theorem exactRoot_some {p n r : Nat} (h : exactRoot p n = some r) : r ^ p = n := by
  have := find?_some h
  simpa using this

theorem dim_strictMono (k : Kind) : StrictMono k.dim := by
  apply strictMono_nat_of_lt_succ
  intro r
  rw [dim_eq_length, dim_eq_length]
  obtain ⟨p, hp⟩ : ∃ p, k.deg = p + 1 := ⟨k.deg - 1, by have := deg_pos k; omega⟩
  rw [hp, length_monoms_succ_succ]
  have : 0 < (monoms p (r + 1)).length := by
    rw [length_monoms]; exact Nat.choose_pos (by omega)
  omega

theorem rOfDim_dim (k : Kind) (r : Nat) : k.rOfDim (k.dim r) = some r := by
  apply find?_range
  · exact Nat.lt_succ_of_le (dim_strictMono k).le_apply
  · simp
  · intro b _ hb
    simp only [decide_eq_true_eq] at hb
    exact (dim_strictMono k).injective hb

theorem rOfDim_some {k : Kind} {b r : Nat} (h : k.rOfDim b = some r) : k.dim r = b := by
  have := find?_some h
  simpa using this

/-! ### expansion -/

theorem length_scatter (init : List K) (w : List (Nat × K)) :
    (scatter init w).length = init.length := by
  unfold scatter
  induction w generalizing init with
  | nil => rfl
  | cons a w ih => simp [ih]

/-- If all assignments to position `i` write `x`, and there is one, position `i` holds `x`. -/
theorem scatter_getD [Zero K] (w : List (Nat × K)) (init : List K) (i : Nat) (x : K)
    (hi : i < init.length) (hw : ∀ a ∈ w, a.1 = i → a.2 = x)
    (hex : init.getD i 0 = x ∨ ∃ a ∈ w, a.1 = i) : (scatter init w).getD i 0 = x := by
  unfold scatter
  induction w generalizing init with
  | nil => simpa using hex
  | cons a w ih =>
    rw [foldl_cons]
    apply ih
    · simpa using hi
    · exact fun b hb => hw b (mem_cons_of_mem _ hb)
    · by_cases ha : a.1 = i
      · left
        have : a.2 = x := hw a mem_cons_self ha
        simp [ha, this, hi]
      · rcases hex with h | ⟨b, hb, hbi⟩
        · left
          have : init[i]?.getD 0 = x := by simpa using h
          simp [ha, this]
        · rcases mem_cons.mp hb with rfl | hb
          · exact absurd hbi ha
          · right; exact ⟨b, hb, hbi⟩

theorem scatter_tuples [Zero K] (p r : Nat) (L : List (List Nat)) (hL : L.Perm (tuples p r))
    (F : List Nat → K) (init : List K) (hi : init.length = r ^ p) :
    scatter init (L.map fun s => (flat r s, F s)) = (tuples p r).map F := by
  have h1 : (scatter init (L.map fun s => (flat r s, F s))).length = r ^ p := by
    rw [length_scatter, hi]
  rw [row_eq_tuples p r _ h1]
  apply map_congr_left
  intro l hl
  apply scatter_getD
  · rw [hi]; exact flat_lt hl
  · intro a ha hal
    rw [mem_map] at ha
    obtain ⟨s, hs, rfl⟩ := ha
    rw [flat_inj (hL.mem_iff.mp hs) hl hal]
  · right
    exact ⟨(flat r l, F l), mem_map.mpr ⟨l, hL.mem_iff.mpr hl, rfl⟩, rfl⟩

/-- The sorted representative. -/
def srt (l : List Nat) : List Nat := insertionSort (· ≥ ·) l

theorem srt_perm (l : List Nat) : (srt l).Perm l := perm_insertionSort _ _

theorem srt_eq_of_mem {p r : Nat} {l s : List Nat} (hl : l ∈ monoms p r) (h : s.Perm l) :
    srt s = l := by
  refine ((srt_perm s).trans h).eq_of_pairwise (fun x y _ _ h1 h2 => le_antisymm h2 h1) ?_
    (mem_monoms.mp hl).2.1
  exact pairwise_insertionSort _ _

theorem srt_congr {s t : List Nat} (h : s.Perm t) : srt s = srt t := by
  refine ((srt_perm s).trans (h.trans (srt_perm t).symm)).eq_of_pairwise
    (fun x y _ _ h1 h2 => le_antisymm h2 h1) ?_ ?_ <;> exact pairwise_insertionSort _ _

/-- Number of distinct rearrangements. -/
def nperm (l : List Nat) : Nat := (permSet l).length

theorem nperm_congr {s t : List Nat} (h : s.Perm t) : nperm s = nperm t := by
  unfold nperm
  have : (permSet s).Perm (permSet t) :=
    (h.permutations').dedup
  exact this.length_eq

theorem nperm_pos (l : List Nat) : 0 < nperm l := by
  unfold nperm
  exact length_pos_of_mem (mem_permSet.mpr (Perm.refl l))

/-- Coefficient of the sorted tuple `l` in the compressed row. -/
def coef [Zero K] (p r : Nat) (hc : List K) (l : List Nat) : K :=
  hc.getD ((monoms p r).idxOf l) 0

theorem row_eq_monoms [Zero K] (p r : Nat) (hc : List K) (h : hc.length = (monoms p r).length) :
    hc = (monoms p r).map (coef p r hc) := by
  apply ext_getElem
  · simp [h]
  · intro i h1 h2
    rw [length_map] at h2
    simp only [getElem_map, coef]
    rw [Nodup.idxOf_getElem (nodup_monoms p r) i h2]
    simp [h1]

theorem expandWrites_eq [Field K] [CharZero K] (k : Kind) (r : Nat) (hc : List K)
    (h : hc.length = k.dim r) :
    k.expandWrites r hc = ((monoms k.deg r).flatMap fun l => (permSet l)).map fun s =>
      (flat r s, coef k.deg r hc (srt s) / (nperm s : K)) := by
  rw [dim_eq_length] at h
  have hz : List.zip (k.indices r) hc
      = (monoms k.deg r).map fun l => (l, coef k.deg r hc l) := by
    rw [indices_eq]
    conv_lhs => rw [row_eq_monoms k.deg r hc h]
    generalize monoms k.deg r = L
    induction L with
    | nil => rfl
    | cons a L ih => simp_all
  rw [Kind.expandWrites, hz, flatMap_map, map_flatMap]
  apply flatMap_congr
  intro l hl
  have hll := (mem_monoms.mp hl).1
  have hgen : (permSet l).map (fun s => (colIdx r s, coef k.deg r hc l / ((permSet l).length : K)))
      = (permSet l).map fun s => (flat r s, coef k.deg r hc (srt s) / (nperm s : K)) := by
    apply map_congr_left
    intro s hs
    rw [mem_permSet] at hs
    rw [srt_eq_of_mem hl hs, nperm_congr hs, colIdx_eq_flat]
    · rfl
    · rw [hs.length_eq, hll]; exact deg_cases k
  rw [← hgen]
  cases k
  · match l, hll with
    | [i, j], _ =>
      simp only
      rw [perms_pair]
      split
      · simp [colIdx]
      · simp [colIdx]
  · rfl
  · rfl

theorem expandRow_eq [Field K] [CharZero K] (k : Kind) (r : Nat) (hc : List K) (junk : K)
    (h : hc.length = k.dim r) :
    scatter (replicate (r ^ k.deg) junk) (k.expandWrites r hc)
      = (tuples k.deg r).map fun s => coef k.deg r hc (srt s) / (nperm s : K) := by
  rw [expandWrites_eq k r hc h]
  exact scatter_tuples k.deg r _ (monoms_perms_perm _ _) _ _ (by simp)

theorem sum_const_map [Semiring K] {α : Type*} (l : List α) (f : α → K) (c : K)
    (h : ∀ a ∈ l, f a = c) : (l.map f).sum = l.length * c := by
  induction l with
  | nil => simp
  | cons a l ih =>
    simp only [map_cons, sum_cons, length_cons]
    rw [h a mem_cons_self, ih fun b hb => h b (mem_cons_of_mem _ hb)]
    push_cast; rw [add_mul, one_mul, add_comm]

theorem compress_expand_row [Field K] [CharZero K] (k : Kind) (r : Nat) (hc : List K)
    (h : hc.length = k.dim r) :
    k.compressRow r ((tuples k.deg r).map fun s => coef k.deg r hc (srt s) / (nperm s : K)) = hc := by
  rw [compressRow_eq]
  conv_rhs => rw [row_eq_monoms k.deg r hc (by rw [h, dim_eq_length])]
  apply map_congr_left
  intro l hl
  have hn : (nperm l : K) ≠ 0 := by
    have := nperm_pos l
    exact_mod_cast this.ne'
  have : ∀ s ∈ (permSet l),
      ((tuples k.deg r).map fun s => coef k.deg r hc (srt s) / (nperm s : K)).getD (flat r s) 0
        = coef k.deg r hc l / (nperm l : K) := by
    intro s hs
    rw [mem_permSet] at hs
    have hst : s ∈ tuples k.deg r := by
      have hm := mem_monoms.mp hl
      rw [mem_tuples]
      exact ⟨by rw [hs.length_eq, hm.1], fun x hx => hm.2.2 x (hs.mem_iff.mp hx)⟩
    rw [tuples_getD k.deg r _ hst, srt_eq_of_mem hl hs, nperm_congr hs]
  rw [sum_const_map _ _ _ this]
  change (nperm l : K) * _ = _
  field_simp

end Opinf
