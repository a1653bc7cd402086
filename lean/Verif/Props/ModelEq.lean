import Verif.Model.Mono
import Mathlib.Data.List.Perm.Subperm
import Mathlib.Data.List.Perm.Basic
import Mathlib.Data.Rat.Defs

/-!
# Equality of models
-/

namespace Opinf

open List

variable {K : Type}

/-! ### Helper lemmas -/

/-- The elements whose index is not marked. -/
def unmarked {α : Type*} (marked : List Nat) : Nat → List α → List α
  | _, [] => []
  | i, b :: bs => if marked.contains i then unmarked marked (i + 1) bs
      else b :: unmarked marked (i + 1) bs

theorem unmarked_lt {α : Type*} (marked : List Nat) (j i : Nat) (hj : j < i) (bs : List α) :
    unmarked (j :: marked) i bs = unmarked marked i bs := by
  induction bs generalizing i with
  | nil => rfl
  | cons b bs ih =>
    have : (j :: marked).contains i = marked.contains i := by
      rw [contains_cons]
      have : (i == j) = false := by simp; omega
      rw [this, Bool.false_or]
    simp only [unmarked, this, ih (i + 1) (by omega)]

theorem unmarked_nil {α : Type*} (i : Nat) (bs : List α) : unmarked [] i bs = bs := by
  induction bs generalizing i with
  | nil => rfl
  | cons b bs ih => simp [unmarked, ih]

theorem findUnmarked_spec {α : Type*} (eq : α → α → Bool) (heq : ∀ a b, eq a b = true ↔ a = b)
    (a : α) (marked : List Nat) (i : Nat) (bs : List α) :
    (findUnmarked eq a marked i bs = none → a ∉ unmarked marked i bs) ∧
    (∀ j, findUnmarked eq a marked i bs = some j → i ≤ j ∧
      unmarked marked i bs ~ a :: unmarked (j :: marked) i bs) := by
  induction bs generalizing i with
  | nil => exact ⟨fun _ => by simp [unmarked], fun j h => by simp [findUnmarked] at h⟩
  | cons b bs ih =>
    obtain ⟨ih1, ih2⟩ := ih (i + 1)
    cases hm : marked.contains i
    · have hun : unmarked marked i (b :: bs) = b :: unmarked marked (i + 1) bs := by
        simp only [unmarked, hm]
        simp
      by_cases hab : eq a b = true
      · have hfind : findUnmarked eq a marked i (b :: bs) = some i := by
          simp only [findUnmarked, hab, hm]
          simp
        rw [hfind]
        refine ⟨by simp, ?_⟩
        intro j hj
        cases hj
        refine ⟨le_refl _, ?_⟩
        rw [hun, (heq a b).mp hab]
        have : unmarked (i :: marked) i (b :: bs) = unmarked (i :: marked) (i + 1) bs := by
          simp [unmarked]
        rw [this, unmarked_lt _ _ _ (by omega)]
      · have hfind : findUnmarked eq a marked i (b :: bs) = findUnmarked eq a marked (i + 1) bs := by
          simp [findUnmarked, hab]
        rw [hfind, hun]
        have hne : a ≠ b := fun h => hab ((heq a b).mpr h)
        refine ⟨fun h => by simp [hne, ih1 h], ?_⟩
        intro j hj
        obtain ⟨h1, h2⟩ := ih2 j hj
        refine ⟨by omega, ?_⟩
        have : (j :: marked).contains i = false := by
          rw [contains_cons, hm]
          have : (i == j) = false := by simp; omega
          rw [this]; rfl
        have hun' : unmarked (j :: marked) i (b :: bs) = b :: unmarked (j :: marked) (i + 1) bs := by
          simp only [unmarked, this]
          simp
        rw [hun']
        exact (h2.cons b).trans (Perm.swap _ _ _)
    · have hun : unmarked marked i (b :: bs) = unmarked marked (i + 1) bs := by
        simp only [unmarked, hm, if_true]
      have hfind : findUnmarked eq a marked i (b :: bs) = findUnmarked eq a marked (i + 1) bs := by
        simp only [findUnmarked, hm]
        simp
      rw [hfind, hun]
      refine ⟨ih1, ?_⟩
      intro j hj
      obtain ⟨h1, h2⟩ := ih2 j hj
      refine ⟨by omega, ?_⟩
      have : (j :: marked).contains i = true := by
        rw [contains_cons, hm, Bool.or_true]
      have hun' : unmarked (j :: marked) i (b :: bs) = unmarked (j :: marked) (i + 1) bs := by
        simp only [unmarked, this, if_true]
      rw [hun']
      exact h2

theorem matchOps_iff {α : Type*} (eq : α → α → Bool) (heq : ∀ a b, eq a b = true ↔ a = b)
    (as bs : List α) (marked : List Nat) :
    matchOps eq as bs marked = true ↔ as <+~ unmarked marked 0 bs := by
  induction as generalizing marked with
  | nil => simp [matchOps, nil_subperm]
  | cons a as ih =>
    obtain ⟨h1, h2⟩ := findUnmarked_spec eq heq a marked 0 bs
    cases hf : findUnmarked eq a marked 0 bs with
    | none =>
      simp only [matchOps, hf, Bool.false_eq_true, false_iff]
      intro hsub
      exact h1 hf (hsub.subset mem_cons_self)
    | some j =>
      obtain ⟨-, hp⟩ := h2 j hf
      simp only [matchOps, hf, ih]
      rw [hp.subperm_left, subperm_cons]

theorem Op.beq_iff [DecidableEq K] (a b : Op K) : a.beq b = true ↔ a = b := by
  obtain ⟨k, E⟩ := a
  obtain ⟨k', E'⟩ := b
  unfold Op.beq
  cases E with
  | none => cases E' <;> simp
  | some E =>
    cases E' with
    | none => simp
    | some F =>
      obtain ⟨n, m, rows⟩ := E
      obtain ⟨n', m', rows'⟩ := F
      simp [and_assoc]

/-! ### C17 -/

/-- **C17.** Two models of the same class are equal exactly when they have the same dimensions and
their operators agree as multisets (in any order, with multiplicity). -/
theorem C17_equality_iff {S : Type} [DecidableEq K] (M N : Model K S) :
    M.beq N = true ↔ M.r = N.r ∧ M.m = N.m ∧ M.ops ~ N.ops := by
  unfold Model.beq
  by_cases hl : M.ops.length = N.ops.length
  · rw [if_neg (by simp [hl])]
    by_cases hr : M.r = N.r
    · rw [if_neg (by simp [hr])]
      by_cases hm : M.m = N.m
      · rw [if_neg (by simp [hm]), matchOps_iff _ Op.beq_iff, unmarked_nil]
        constructor
        · intro h; exact ⟨hr, hm, h.perm_of_length_le (by omega)⟩
        · intro h; exact h.2.2.subperm
      · rw [if_pos hm]; simp [hm]
    · rw [if_pos hr]; simp [hr]
  · rw [if_pos hl]
    simp only [Bool.false_eq_true, false_iff]
    intro h; exact hl h.2.2.length_eq

/-- **C17.** Model equality is an equivalence relation. -/
theorem C17_equality_equivalence {S : Type} [DecidableEq K] :
    (∀ M : Model K S, M.beq M = true) ∧
    (∀ M N : Model K S, M.beq N = N.beq M) ∧
    (∀ M N P : Model K S, M.beq N = true → N.beq P = true → M.beq P = true) := by
  refine ⟨fun M => (C17_equality_iff M M).mpr ⟨rfl, rfl, .refl _⟩, ?_, ?_⟩
  · intro M N
    rw [Bool.eq_iff_iff, C17_equality_iff, C17_equality_iff]
    constructor
    · rintro ⟨h1, h2, h3⟩; exact ⟨h1.symm, h2.symm, h3.symm⟩
    · rintro ⟨h1, h2, h3⟩; exact ⟨h1.symm, h2.symm, h3.symm⟩
  · intro M N P h1 h2
    rw [C17_equality_iff] at h1 h2 ⊢
    exact ⟨h1.1.trans h2.1, h1.2.1.trans h2.2.1, h1.2.2.trans h2.2.2⟩

/-- Reordered operators are equal, different multiplicities are not. -/
example :
    let a : Op ℚ := ⟨.lin, some ⟨1, 1, [[2]]⟩⟩
    let b : Op ℚ := ⟨.const, some ⟨1, 1, [[3]]⟩⟩
    let mk := fun ops : List (Op ℚ) =>
      (⟨ops.map fun o => ⟨o, false⟩, false, some 1, some 0, true, none⟩ : Model ℚ Unit)
    (mk [a, b, a]).beq (mk [b, a, a]) = true ∧ (mk [a, b, a]).beq (mk [b, a, b]) = false := by
  decide +kernel

end Opinf
