import Verif.Lemmas.TransformLeaf

/-!
# Slices, positions and broadcasting

Facts used by `Verif/Props/TransformReject.lean`.
-/

namespace Opinf

open List

/-- A counted arithmetic progression upwards. -/
theorem mem_stepsUp {A B st i : Int} (hst : 0 < st) :
    i ∈ ((range (if A < B then ((B - A - 1) / st + 1).toNat else 0)).map fun j : Nat => A + (j : Int) * st) ↔
      A ≤ i ∧ i < B ∧ st ∣ i - A := by
  simp only [mem_map, mem_range]
  constructor
  · rintro ⟨j, hj, rfl⟩
    split at hj
    · rename_i hAB
      have hq : 0 ≤ (B - A - 1) / st := Int.ediv_nonneg (by omega) (by omega)
      have hj2 : (j : Int) ≤ (B - A - 1) / st := by omega
      have hm : (j : Int) * st ≤ B - A - 1 := (Int.le_ediv_iff_mul_le hst).1 hj2
      have h0 : 0 ≤ (j : Int) * st := Int.mul_nonneg (by omega) (by omega)
      exact ⟨by omega, by omega, ⟨j, by ring⟩⟩
    · omega
  · rintro ⟨h1, h2, k, hk⟩
    have hk0 : 0 ≤ k := by
      by_contra hneg
      have : st * k < 0 := Int.mul_neg_of_pos_of_neg hst (by omega)
      omega
    have hkq : k ≤ (B - A - 1) / st := (Int.le_ediv_iff_mul_le hst).2 (by rw [mul_comm]; omega)
    refine ⟨k.toNat, ?_, ?_⟩
    · rw [if_pos (by omega)]; omega
    · rw [Int.toNat_of_nonneg hk0, mul_comm, ← hk]; ring

theorem pairwise_stepsUp (A st : Int) (hst : 0 < st) (c : Nat) :
    ((range c).map fun j : Nat => A + (j : Int) * st).Pairwise (· < ·) := by
  rw [pairwise_map]
  refine pairwise_lt_range.imp ?_
  intro a b hab
  have : (a : Int) * st < (b : Int) * st := Int.mul_lt_mul_of_pos_right (by omega) hst
  omega

/-- A counted arithmetic progression downwards. -/
theorem mem_stepsDown {A B st i : Int} (hst : st < 0) :
    i ∈ ((range (if B < A then ((A - B - 1) / (-st) + 1).toNat else 0)).map
      fun j : Nat => A + (j : Int) * st) ↔ B < i ∧ i ≤ A ∧ st ∣ A - i := by
  have key := @mem_stepsUp (-A) (-B) (-st) (-i) (by omega)
  simp only [mem_map, mem_range] at key ⊢
  simp only [neg_lt_neg_iff, show -B - -A - 1 = A - B - 1 by ring] at key
  constructor
  · rintro ⟨j, hj, hi⟩
    obtain ⟨h1, h2, h3⟩ := key.1 ⟨j, hj, by rw [← hi]; ring⟩
    refine ⟨by omega, by omega, ?_⟩
    rw [show -i - -A = A - i by ring] at h3
    exact (Int.neg_dvd).1 h3
  · rintro ⟨h1, h2, h3⟩
    obtain ⟨j, hj, hi⟩ := key.2 ⟨by omega, by omega, by
      rw [show -i - -A = A - i by ring]; exact (Int.neg_dvd).2 h3⟩
    exact ⟨j, hj, by rw [← neg_neg i, ← hi]; ring⟩

theorem pairwise_stepsDown (A st : Int) (hst : st < 0) (c : Nat) :
    ((range c).map fun j : Nat => A + (j : Int) * st).Pairwise (· > ·) := by
  rw [pairwise_map]
  refine pairwise_lt_range.imp ?_
  intro a b hab
  have : (b : Int) * st < (a : Int) * st := Int.mul_lt_mul_of_neg_right (by omega) hst
  omega

theorem pyIndex_iff {n : Nat} {i : Int} {j : Nat} :
    pyIndex n i = .ok j ↔ j < n ∧ (i = j ∨ i = j - n) := by
  unfold pyIndex
  split
  · split
    · simp only [Except.ok.injEq]; omega
    · simp only [reduceCtorEq, false_iff]; omega
  · split
    · simp only [Except.ok.injEq]; omega
    · simp only [reduceCtorEq, false_iff]; omega

theorem pyIndex_error {n : Nat} {i : Int} {e : Err} (h : pyIndex n i = .error e) : e = .index := by
  unfold pyIndex at h
  split at h
  · split at h <;> simp at h; exact h.symm
  · split at h <;> simp at h; exact h.symm

theorem mapM_pyIndex_error {n : Nat} {is : List Int} {e : Err} (h : is.mapM (pyIndex n) = .error e) :
    e = .index := by
  induction is with
  | nil => simp [pure, Except.pure] at h
  | cons i is ih =>
    simp only [mapM_cons, bind, Except.bind] at h
    cases h1 : pyIndex n i with
    | error e1 =>
      simp only [h1, Except.error.injEq] at h
      exact h ▸ pyIndex_error h1
    | ok j =>
      simp only [h1] at h
      cases h2 : is.mapM (pyIndex n) with
      | error e2 =>
        simp only [h2, Except.error.injEq] at h
        exact ih (h ▸ h2)
      | ok js => simp only [h2, pure, Except.pure, reduceCtorEq] at h

/-- The positions of a slice are valid as they are. -/
theorem mapM_pyIndex_valid {n : Nat} {is : List Int} (h : ∀ i ∈ is, 0 ≤ i ∧ i < n) :
    is.mapM (pyIndex n) = .ok (is.map Int.toNat) := by
  induction is with
  | nil => rfl
  | cons i is ih =>
    have h1 : pyIndex n i = .ok i.toNat := by
      have := h i (by simp)
      exact pyIndex_iff.2 ⟨by omega, by omega⟩
    simp only [mapM_cons, h1, ih fun j hj => h j (by simp [hj]), bind, Except.bind, pure, Except.pure,
      map_cons]

variable {K : Type}

/-- A number, an array with one entry per row, or an array with one entry. -/
def Coef.Broadcasts (c : Coef K) (n : Nat) : Prop :=
  match c with
  | .num _ => True
  | .arr as => as.length = n ∨ as.length = 1

theorem Snap.op_returns [Zero K] (f : K → K → K) {Y : Snap K} {c : Coef K} (h : c.Broadcasts Y.len) :
    ∃ Z, Y.op f c = .ok Z ∧ Z.len = Y.len := by
  cases c with
  | num a => exact ⟨_, rfl, Snap.len_rowMap _ _⟩
  | arr as =>
    simp only [Coef.Broadcasts] at h
    by_cases hl : as.length = Y.len
    · exact ⟨_, by simp only [Snap.op, if_pos hl]; rfl, Snap.len_rowMap _ _⟩
    · match as, h, hl with
      | [a], _, hl => exact ⟨_, by simp only [Snap.op, if_neg hl]; rfl, Snap.len_rowMap _ _⟩
      | [], h, hl => simp at h hl; omega
      | _ :: _ :: _, h, hl => simp at h hl; omega

theorem Snap.op_refuses [Zero K] (f : K → K → K) {Y : Snap K} {c : Coef K} (h : ¬ c.Broadcasts Y.len) :
    Y.op f c = .error .value := by
  cases c with
  | num a => exact absurd trivial h
  | arr as =>
    simp only [Coef.Broadcasts, not_or] at h
    match as, h with
    | [a], h => simp at h
    | [], h => simp only [Snap.op, if_neg h.1]
    | _ :: _ :: _, h => simp only [Snap.op, if_neg h.1]

end Opinf
