import Verif.Model.Kron
import Mathlib.Data.List.Sort
import Mathlib.Data.List.Permutation
import Mathlib.Data.List.Dedup
import Mathlib.Data.Nat.Choose.Sum
import Mathlib.Tactic.Ring
import Mathlib.Tactic.Linarith

/-! Index tuples, sorted index tuples and Kronecker powers (helper lemmas). -/

namespace Opinf

open List

variable {K : Type*}

/-- Weakly decreasing index tuples of length `p` with entries below `r`, in loop order. -/
def monoms : Nat → Nat → List (List Nat)
  | 0, _ => [[]]
  | p + 1, r => (range r).flatMap fun i => (monoms p (i + 1)).map (i :: ·)

/-- All index tuples of length `p` with entries below `r`, in lexicographic order. -/
def tuples : Nat → Nat → List (List Nat)
  | 0, _ => [[]]
  | p + 1, r => (range r).flatMap fun i => (tuples p r).map (i :: ·)

/-- Row-major flat index of a tuple. -/
def flat (r : Nat) (l : List Nat) : Nat := l.foldl (fun a i => a * r + i) 0

theorem mem_monoms {p r : Nat} {l : List Nat} :
    l ∈ monoms p r ↔ l.length = p ∧ l.Pairwise (· ≥ ·) ∧ ∀ x ∈ l, x < r := by
  induction p generalizing r l with
  | zero => 
    simp only [monoms, mem_singleton]
    constructor
    · rintro rfl; simp
    · rintro ⟨h, -⟩; exact length_eq_zero_iff.mp h
  | succ p ih =>
    simp only [monoms, mem_flatMap, mem_range, mem_map, ih]
    constructor
    · rintro ⟨i, hi, t, ⟨ht, hs, hb⟩, rfl⟩
      refine ⟨by simp [ht], ?_, ?_⟩
      · rw [pairwise_cons]; exact ⟨fun x hx => Nat.lt_succ_iff.mp (hb x hx), hs⟩
      · intro x hx
        rcases mem_cons.mp hx with rfl | hx
        · exact hi
        · have := hb x hx; omega
    · rintro ⟨hl, hs, hb⟩
      match l, hl with
      | i :: t, hl =>
        rw [pairwise_cons] at hs
        refine ⟨i, hb i (by simp), t, ⟨by simpa using hl, hs.2, fun x hx => ?_⟩, rfl⟩
        exact Nat.lt_succ_of_le (hs.1 x hx)

theorem mem_tuples {p r : Nat} {l : List Nat} :
    l ∈ tuples p r ↔ l.length = p ∧ ∀ x ∈ l, x < r := by
  induction p generalizing l with
  | zero => 
    simp only [tuples, mem_singleton]
    constructor
    · rintro rfl; simp
    · rintro ⟨h, -⟩; exact length_eq_zero_iff.mp h
  | succ p ih =>
    simp only [tuples, mem_flatMap, mem_range, mem_map, ih]
    constructor
    · rintro ⟨i, hi, t, ⟨ht, hb⟩, rfl⟩
      refine ⟨by simp [ht], ?_⟩
      intro x hx
      rcases mem_cons.mp hx with rfl | hx
      · exact hi
      · exact hb x hx
    · rintro ⟨hl, hb⟩
      match l, hl with
      | i :: t, hl =>
        exact ⟨i, hb i (by simp), t, ⟨by simpa using hl, fun x hx => hb x (by simp [hx])⟩, rfl⟩

theorem nodup_cons_flatMap (r : Nat) (f : Nat → List (List Nat)) (hf : ∀ i, (f i).Nodup) :
    ((range r).flatMap fun i => (f i).map (i :: ·)).Nodup := by
  rw [nodup_flatMap]
  refine ⟨fun i _ => (hf i).map (fun a b h => by simpa using h), ?_⟩
  refine (nodup_range (n := r)).imp (fun {a b} hab => ?_)
  intro l ha hb
  simp only [mem_map] at ha hb
  obtain ⟨x, -, rfl⟩ := ha
  obtain ⟨y, -, hy⟩ := hb
  exact hab (by simpa using (congrArg List.head? hy).symm)

theorem nodup_monoms (p r : Nat) : (monoms p r).Nodup := by
  induction p generalizing r with
  | zero => simp [monoms]
  | succ p ih => exact nodup_cons_flatMap r _ (fun i => ih _)

theorem nodup_tuples (p r : Nat) : (tuples p r).Nodup := by
  induction p with
  | zero => simp [tuples]
  | succ p ih => exact nodup_cons_flatMap r _ (fun i => ih)

theorem mem_permSet {s l : List Nat} : s ∈ permSet l ↔ s.Perm l := by
  rw [permSet, mem_dedup, mem_permutations']

/-- Every tuple is a permutation of exactly one sorted tuple. -/
theorem monoms_perms_perm (p r : Nat) :
    ((monoms p r).flatMap fun l => (permSet l)).Perm (tuples p r) := by
  apply (List.perm_ext_iff_of_nodup _ (nodup_tuples p r)).mpr
  · intro l
    simp only [mem_flatMap, mem_permSet]
    constructor
    · rintro ⟨t, ht, hp⟩
      rw [mem_monoms] at ht
      rw [mem_tuples]
      exact ⟨by rw [hp.length_eq, ht.1], fun x hx => ht.2.2 x (hp.mem_iff.mp hx)⟩
    · intro hl
      rw [mem_tuples] at hl
      have hp := perm_insertionSort (· ≥ · : Nat → Nat → Prop) l
      refine ⟨insertionSort (· ≥ ·) l, ?_, hp.symm⟩
      rw [mem_monoms]
      refine ⟨by rw [hp.length_eq, hl.1], pairwise_insertionSort _ _,
        fun x hx => hl.2 x (hp.mem_iff.mp hx)⟩
  · rw [nodup_flatMap]
    refine ⟨fun l _ => nodup_dedup _, ?_⟩
    have := nodup_monoms p r
    refine List.Pairwise.imp_of_mem ?_ this
    intro a b ha hb hab l hla hlb
    simp only [mem_permSet] at hla hlb
    apply hab
    rw [mem_monoms] at ha hb
    exact (hla.symm.trans hlb).eq_of_pairwise (fun x y _ _ h1 h2 => le_antisymm h2 h1) ha.2.1 hb.2.1

theorem sum_map_flatMap [AddCommMonoid K] {α β : Type*} (l : List α) (f : α → List β) (g : β → K) :
    ((l.flatMap f).map g).sum = (l.map fun a => ((f a).map g).sum).sum := by
  induction l with
  | nil => simp
  | cons a l ih => simp [ih]

theorem sum_monoms_perms [AddCommMonoid K] (p r : Nat) (F : List Nat → K) :
    ((monoms p r).map fun l => ((permSet l).map F).sum).sum
      = ((tuples p r).map F).sum := by
  rw [← sum_map_flatMap]
  exact ((monoms_perms_perm p r).map F).sum_eq

/-! ### flat indices -/

theorem foldl_flat (r : Nat) (l : List Nat) (a : Nat) :
    l.foldl (fun a i => a * r + i) a = a * r ^ l.length + flat r l := by
  unfold flat
  induction l generalizing a with
  | nil => simp
  | cons i l ih =>
    simp only [foldl_cons, length_cons]
    rw [ih, ih (0 * r + i)]
    ring

@[simp] theorem flat_nil (r : Nat) : flat r [] = 0 := rfl

theorem flat_cons (r i : Nat) (l : List Nat) : flat r (i :: l) = i * r ^ l.length + flat r l := by
  have := foldl_flat r l (0 * r + i)
  simp only [flat, foldl_cons] at this ⊢
  rw [this]; simp

theorem flatMap_range_add (f : Nat → Nat) (r m : Nat) (hf : ∀ i, f i = i * m) :
    ((range r).flatMap fun i => (range m).map (f i + ·)) = range (r * m) := by
  induction r with
  | zero => simp
  | succ r ih =>
    rw [range_succ, flatMap_append, ih, Nat.succ_mul, range_add]
    simp [hf]

theorem tuples_map_flat (p r : Nat) : (tuples p r).map (flat r) = range (r ^ p) := by
  induction p with
  | zero => simp [tuples]
  | succ p ih =>
    rw [tuples, map_flatMap, pow_succ']
    rw [← flatMap_range_add (fun i => i * r ^ p) r (r ^ p) (fun _ => rfl)]
    apply flatMap_congr
    intro i _
    rw [← ih, map_map, map_map]
    apply map_congr_left
    intro l hl
    simp only [Function.comp]
    rw [flat_cons, (mem_tuples.mp hl).1]

theorem length_tuples (p r : Nat) : (tuples p r).length = r ^ p := by
  rw [← List.length_map (f := flat r), tuples_map_flat, length_range]

theorem flat_lt {p r : Nat} {l : List Nat} (h : l ∈ tuples p r) : flat r l < r ^ p := by
  rw [← mem_range, ← tuples_map_flat]
  exact mem_map_of_mem h

theorem flat_inj {p r : Nat} {l l' : List Nat} (h : l ∈ tuples p r) (h' : l' ∈ tuples p r)
    (e : flat r l = flat r l') : l = l' := by
  have : ((tuples p r).map (flat r)).Nodup := by rw [tuples_map_flat]; exact nodup_range
  exact inj_on_of_nodup_map this h h' e

theorem map_range_getD [Zero K] (h : List K) :
    (range h.length).map (fun i => h.getD i 0) = h := by
  apply ext_getElem (by simp)
  intro i h1 h2
  simp at h1
  simp [h1]

/-- A full row is the list of its entries at the flat tuple indices. -/
theorem row_eq_tuples [Zero K] (p r : Nat) (h : List K) (hl : h.length = r ^ p) :
    h = (tuples p r).map fun l => h.getD (flat r l) 0 := by
  conv_lhs => rw [← map_range_getD h, hl, ← tuples_map_flat p r]
  rw [map_map]; rfl

theorem tuples_getD [Zero K] (p r : Nat) (f : List Nat → K) {l : List Nat} (hl : l ∈ tuples p r) :
    ((tuples p r).map f).getD (flat r l) 0 = f l := by
  obtain ⟨i, hi, hil⟩ := getElem_of_mem hl
  have h1 : flat r l = i := by
    have : ((tuples p r).map (flat r))[i]'(by simpa using hi) = (range (r ^ p))[i]'(by rw [length_range, ← length_tuples p r]; exact hi) := by
      simp [tuples_map_flat]
    rw [getElem_map, hil, getElem_range] at this
    exact this
  rw [h1]
  simp [hi, hil]

/-! ### Kronecker powers -/

/-- `q ⊗ (q ⊗ (... ⊗ [1]))`. -/
def kronPow [Mul K] [One K] (q : List K) : Nat → List K
  | 0 => [1]
  | p + 1 => kron q (kronPow q p)

/-- The product `q[l₀] * q[l₁] * ...`. -/
def mono [MulZeroOneClass K] (q : List K) (l : List Nat) : K := (l.map fun i => q.getD i 0).prod

theorem flatMap_eq_range [Zero K] {β : Type*} (q : List K) (f : K → List β) :
    q.flatMap f = (range q.length).flatMap fun i => f (q.getD i 0) := by
  conv_lhs => rw [← map_range_getD q]
  rw [flatMap_map]

theorem kronPow_eq [CommSemiring K] (q : List K) (p : Nat) :
    kronPow q p = (tuples p q.length).map (mono q) := by
  induction p with
  | zero => simp [kronPow, tuples, mono]
  | succ p ih =>
    rw [kronPow, kron, flatMap_eq_range, tuples, map_flatMap, ih]
    apply flatMap_congr
    intro i _
    rw [map_map, map_map]
    apply map_congr_left
    intro l _
    simp [mono]

theorem mono_perm [CommSemiring K] (q : List K) {l l' : List Nat} (h : l.Perm l') :
    mono q l = mono q l' := (h.map _).prod_eq

/-! ### dot products over a common index list -/

theorem dot_map_map [Semiring K] {α : Type*} (l : List α) (f g : α → K) :
    dot (l.map f) (l.map g) = (l.map fun a => f a * g a).sum := by
  induction l with
  | nil => simp [dot]
  | cons a l ih => simp only [dot] at ih ⊢; simp

theorem dot_append [Semiring K] (a b c d : List K) (h : a.length = c.length) :
    dot (a ++ b) (c ++ d) = dot a c + dot b d := by
  unfold dot; rw [zipWith_append h, sum_append]

theorem sum_map_mul_right' [Semiring K] {α : Type*} (l : List α) (f : α → K) (c : K) :
    (l.map fun a => f a * c).sum = (l.map f).sum * c := by
  induction l with
  | nil => simp
  | cons a l ih => simp [ih, add_mul]

/-! ### sizes and prefixes of the sorted tuple lists -/

theorem length_monoms_succ_succ (p r : Nat) :
    (monoms (p + 1) (r + 1)).length = (monoms (p + 1) r).length + (monoms p (r + 1)).length := by
  simp [monoms, range_succ]

theorem length_monoms (p r : Nat) : (monoms p (r + 1)).length = (r + p).choose p := by
  induction p generalizing r with
  | zero => simp [monoms]
  | succ p ih =>
    induction r with
    | zero =>
      rw [length_monoms_succ_succ]
      simp [monoms, ih]
    | succ r ihr =>
      rw [length_monoms_succ_succ, ihr, ih]
      have h1 : r + 1 + (p + 1) = (r + 1 + p) + 1 := by omega
      have h2 : r + (p + 1) = r + 1 + p := by omega
      rw [h1, h2, Nat.choose_succ_succ, Nat.add_comm]

theorem length_monoms_zero (p : Nat) : (monoms (p + 1) 0).length = 0 := by simp [monoms]

theorem monoms_prefix (p : Nat) {i r : Nat} (h : i ≤ r) : monoms (p + 1) i <+: monoms (p + 1) r := by
  obtain ⟨d, rfl⟩ := Nat.exists_eq_add_of_le h
  refine ⟨((range d).map (i + ·)).flatMap fun i => (monoms p (i + 1)).map (i :: ·), ?_⟩
  simp only [monoms]
  rw [range_add, flatMap_append]

theorem monoms_take (p : Nat) {i r : Nat} (h : i ≤ r) :
    (monoms (p + 1) r).take (monoms (p + 1) i).length = monoms (p + 1) i := by
  obtain ⟨t, ht⟩ := monoms_prefix p h
  rw [← ht]; simp

end Opinf
