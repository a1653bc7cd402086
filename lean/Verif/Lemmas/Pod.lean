import Verif.Lemmas.Basis
import Mathlib.Order.Bounds.Basic
import Mathlib.Tactic.Linarith

/-!
# Lemmas on counting and energies
-/

namespace Opinf

open List

variable {K : Type}

/-- Counting along a list on which the predicate holds exactly for an initial segment. -/
theorem countIf_prefix (p : K → Bool) : ∀ (a : List K),
    (∀ i j, (hi : i < j) → (hj : j < a.length) → p a[j] = true → p a[i] = true) →
    ∀ i, (h : i < a.length) → (p a[i] = true ↔ i < countIf p a)
  | [], _, i, h => by simp at h
  | x :: a, hp, i, h => by
    have hcount : countIf p (x :: a) = (if p x = true then 1 else 0) + countIf p a := by
      unfold countIf
      by_cases hx : p x = true
      · simp [hx]; omega
      · simp [hx]
    have ih := countIf_prefix p a (fun i j hi hj hpj => by
      have := hp (i + 1) (j + 1) (by omega) (by simpa using hj)
      simpa using this (by simpa using hpj))
    by_cases hx : p x = true
    · rw [hcount, if_pos hx]
      cases i with
      | zero => simp [hx]
      | succ i =>
        have h' : i < a.length := by simpa using h
        have := ih i h'
        simp only [getElem_cons_succ]
        rw [this]
        omega
    · have hall : ∀ y ∈ a, ¬ p y = true := by
        intro y hy hpy
        obtain ⟨j, hj, rfl⟩ := mem_iff_getElem.1 hy
        have := hp 0 (j + 1) (by omega) (by simpa using hj)
        exact hx (by simpa using this (by simpa using hpy))
      have h0 : countIf p a = 0 := by
        unfold countIf
        rw [length_eq_zero_iff, filter_eq_nil_iff]
        exact hall
      rw [hcount, if_neg hx, h0]
      cases i with
      | zero => simp [hx]
      | succ i =>
        have h' : i < a.length := by simpa using h
        simpa using hall _ (getElem_mem h')

theorem countIf_le (p : K → Bool) (a : List K) : countIf p a ≤ a.length := length_filter_le ..

section
variable [Field K] [LinearOrder K]

theorem searchSorted_eq (a : List K) (v : K) : searchSorted a v = countIf (fun x => decide (x < v)) a := by
  simp [searchSorted, countIf]

theorem length_energies (vals : List K) : (energies vals).length = vals.length := by simp [energies]

theorem getElem_energies (vals : List K) (i : Nat) (h : i < (energies vals).length) :
    (energies vals)[i] = energySum (vals.take (i + 1)) / energySum vals := by
  simp [energies]

variable [IsStrictOrderedRing K]

theorem energySum_nonneg (vals : List K) : 0 ≤ energySum vals := by
  unfold energySum
  apply List.sum_nonneg
  intro x hx
  obtain ⟨y, _, rfl⟩ := mem_map.1 hx
  exact sq_nonneg y

omit [LinearOrder K] [IsStrictOrderedRing K] in
theorem energySum_append (a b : List K) : energySum (a ++ b) = energySum a + energySum b := by
  simp [energySum]

theorem energySum_take_mono (vals : List K) {i j : Nat} (h : i ≤ j) :
    energySum (vals.take i) ≤ energySum (vals.take j) := by
  have : vals.take j = vals.take i ++ (vals.take j).drop i := by
    conv_lhs => rw [← take_append_drop i (vals.take j), take_take, Nat.min_eq_left h]
  rw [this, energySum_append]
  have := energySum_nonneg ((vals.take j).drop i)
  linarith

end

end Opinf
