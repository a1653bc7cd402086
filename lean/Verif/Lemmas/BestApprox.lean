import Verif.Lemmas.TlsMatrix
import Mathlib.LinearAlgebra.Matrix.Notation

/-!
# The best approximation of given rows by few vectors, in an inner product with weights, over an ordered field
-/

namespace Opinf

open Matrix

variable {K : Type} [Field K] [LinearOrder K] [IsStrictOrderedRing K]

/-- There is an orthogonal projection that fixes the given vectors and whose rank is at most their number. -/
theorem exists_proj {n : Type} [Fintype n] [DecidableEq n] (l : List (n → K)) :
    ∃ P : Matrix n n K, Pᵀ = P ∧ P * P = P ∧ (∀ v ∈ l, P *ᵥ v = v) ∧ trace P ≤ l.length := by
  induction l with
  | nil => exact ⟨0, by simp, by simp, by simp, by simp⟩
  | cons v l ih =>
    obtain ⟨P, h1, h2, h3, h4⟩ := ih
    by_cases hv : P *ᵥ v = v
    · refine ⟨P, h1, h2, ?_, ?_⟩
      · intro u hu
        rcases List.mem_cons.1 hu with rfl | hu
        · exact hv
        · exact h3 u hu
      · push_cast [List.length_cons]; linarith
    · set w := v - P *ᵥ v with hw
      have hw0 : w ≠ 0 := fun h => hv (by rw [hw, sub_eq_zero] at h; exact h.symm)
      have hww : 0 < w ⬝ᵥ w := by
        obtain ⟨i, hi⟩ := Function.ne_iff.mp hw0
        refine Finset.sum_pos' (fun j _ => mul_self_nonneg _) ⟨i, Finset.mem_univ _, ?_⟩
        exact mul_self_pos.mpr hi
      have hPw : P *ᵥ w = 0 := by
        rw [hw, mulVec_sub, mulVec_mulVec, h2, sub_self]
      have hwP : ∀ u, w ⬝ᵥ P *ᵥ u = 0 := by
        intro u
        rw [dotProduct_mulVec, ← mulVec_transpose, h1, hPw, zero_dotProduct]
      have hrank : ∀ u, vecMulVec w w *ᵥ u = (w ⬝ᵥ u) • w := by
        intro u
        funext i
        simp only [mulVec, dotProduct, vecMulVec_apply, Pi.smul_apply, smul_eq_mul, Finset.sum_mul]
        exact Finset.sum_congr rfl fun j _ => by ring
      have hwv : w ⬝ᵥ v = w ⬝ᵥ w := by
        conv_lhs => rw [show v = w + P *ᵥ v by rw [hw]; abel]
        rw [dotProduct_add, hwP, add_zero]
      refine ⟨P + (w ⬝ᵥ w)⁻¹ • vecMulVec w w, ?_, ?_, ?_, ?_⟩
      · rw [transpose_add, h1, transpose_smul, transpose_vecMulVec]
      · have e1 : P * vecMulVec w w = 0 := by
          rw [mul_vecMulVec, hPw, zero_vecMulVec]
        have e2 : vecMulVec w w * P = 0 := by
          rw [vecMulVec_mul, ← mulVec_transpose, h1, hPw, vecMulVec_zero]
        have e3 : vecMulVec w w * vecMulVec w w = (w ⬝ᵥ w) • vecMulVec w w := by
          rw [vecMulVec_mul_vecMulVec, vecMulVec_smul]
        rw [Matrix.add_mul, Matrix.mul_add, Matrix.mul_add, h2, Matrix.mul_smul, e1, Matrix.smul_mul, e2, Matrix.smul_mul,
          Matrix.mul_smul, e3, smul_zero, add_zero, zero_add, smul_smul, smul_smul, mul_assoc, inv_mul_cancel₀ hww.ne', mul_one]
      · intro u hu
        rw [add_mulVec, smul_mulVec, hrank, smul_smul]
        rcases List.mem_cons.1 hu with rfl | hu
        · rw [hwv, inv_mul_cancel₀ hww.ne', one_smul, hw]
          abel
        · have : w ⬝ᵥ u = 0 := by rw [← h3 u hu]; exact hwP u
          rw [this, mul_zero, zero_smul, add_zero, h3 u hu]
      · rw [trace_add, trace_smul, trace_vecMulVec, smul_eq_mul, inv_mul_cancel₀ hww.ne', List.length_cons]
        push_cast
        linarith

/-- Weights between 0 and 1 with sum at most `r` cannot beat the `r` largest values. -/
theorem head_sum_ge (p r : Nat) (a t : Fin p → K) (ha : ∀ i j, i ≤ j → a j ≤ a i) (ha0 : ∀ i, 0 ≤ a i)
    (ht : ∀ i, 0 ≤ t i ∧ t i ≤ 1) (hsum : ∑ i, t i ≤ r) :
    ∑ i, a i * t i ≤ ∑ i : Fin p, if (i : Nat) < r then a i else 0 := by
  by_cases hr : r < p
  · set c := a ⟨r, hr⟩ with hc
    have hc0 : 0 ≤ c := ha0 _
    have h1 : ∀ i : Fin p, (a i - c) * t i ≤ if (i : Nat) < r then a i - c else 0 := by
      intro i
      split
      · rename_i h
        have : c ≤ a i := ha i ⟨r, hr⟩ (Fin.le_def.mpr (by simpa using h.le))
        nlinarith [(ht i).1, (ht i).2]
      · rename_i h
        have : a i ≤ c := ha ⟨r, hr⟩ i (Fin.le_def.mpr (by simpa using h))
        nlinarith [(ht i).1, (ht i).2]
    have h2 := Finset.sum_le_sum fun i (_ : i ∈ Finset.univ) => h1 i
    have h3 : (∑ i : Fin p, if (i : Nat) < r then c else 0) = r * c := by
      rw [← Finset.sum_filter, Finset.sum_const, nsmul_eq_mul]
      congr 2
      have := Fin.card_filter_val_lt (n := p) (m := r)
      rw [this]
      omega
    have h4 : (∑ i : Fin p, if (i : Nat) < r then a i - c else 0) =
        (∑ i : Fin p, if (i : Nat) < r then a i else 0) - ∑ i : Fin p, if (i : Nat) < r then c else 0 := by
      rw [← Finset.sum_sub_distrib]
      refine Finset.sum_congr rfl fun i _ => ?_
      split <;> simp
    simp only [sub_mul, Finset.sum_sub_distrib, ← Finset.mul_sum] at h2
    rw [h4, h3] at h2
    have h5 : c * ∑ i, t i ≤ c * r := mul_le_mul_of_nonneg_left hsum hc0
    linarith
  · refine Finset.sum_le_sum fun i _ => ?_
    rw [if_pos (by omega)]
    nlinarith [ha0 i, (ht i).2]

omit [LinearOrder K] [IsStrictOrderedRing K] in
theorem diag_conj {k p : Type} [Fintype k] [Fintype p] [DecidableEq p] (R : Matrix k p K) (N : Matrix k k K) (lam : p → K) :
    trace (R * diagonal lam * Rᵀ * N) = ∑ l, lam l * (Rᵀ * N * R) l l := by
  have : trace (R * diagonal lam * Rᵀ * N) = trace (diagonal lam * (Rᵀ * N * R)) := by
    rw [Matrix.mul_assoc, Matrix.mul_assoc, trace_mul_comm, Matrix.mul_assoc, Matrix.mul_assoc]
  rw [this]
  simp [trace, diagonal_mul]

/-- **Lower bound.** If the Gramian `A W Aᵀ` of the rows of `A` has eigenvalues `lam` with orthonormal eigenvectors, then
every approximation of the rows by `r` vectors has an error of at least the sum of all but the `r` largest ones. -/
theorem approx_lower {n k p : Nat} (r : Nat) (W : Matrix (Fin n) (Fin n) K)
    (hW : ∀ x : Fin n → K, 0 ≤ x ⬝ᵥ W *ᵥ x) (A : Matrix (Fin k) (Fin n) K) (R : Matrix (Fin k) (Fin p) K)
    (lam : Fin p → K) (hR : Rᵀ * R = 1) (hG : A * W * Aᵀ = R * diagonal lam * Rᵀ) (hl : ∀ i j, i ≤ j → lam j ≤ lam i)
    (hl0 : ∀ i, 0 ≤ lam i) (C : Matrix (Fin k) (Fin r) K) (U : Matrix (Fin r) (Fin n) K) :
    (∑ l : Fin p, if (l : Nat) < r then 0 else lam l) ≤ trace ((A - C * U) * W * (A - C * U)ᵀ) := by
  obtain ⟨P, h1, h2, h3, h4⟩ := exists_proj (List.ofFn fun i : Fin r => Cᵀ i)
  rw [List.length_ofFn] at h4
  have hPC : P * C = C := by
    ext i j
    have := congrFun (h3 (Cᵀ j) (List.mem_ofFn.mpr ⟨j, rfl⟩)) i
    simpa [mulVec, dotProduct, mul_apply] using this
  set N := 1 - P with hN
  have hNs : Nᵀ = N := by rw [hN, transpose_sub, transpose_one, h1]
  have hNp : N * N = N := by
    rw [hN, Matrix.sub_mul, Matrix.one_mul, Matrix.mul_sub, Matrix.mul_one, h2, sub_self, sub_zero]
  have hpos : ∀ X : Matrix (Fin k) (Fin n) K, 0 ≤ trace (X * W * Xᵀ) := by
    intro X
    refine Finset.sum_nonneg fun i _ => ?_
    have := hW (X i)
    rw [diag_apply, Matrix.mul_assoc, mul_apply]
    simpa [dotProduct, mulVec, mul_apply] using this
  set X := A - C * U with hX
  have hNX : N * X = N * A := by
    rw [hX, Matrix.mul_sub, ← Matrix.mul_assoc, hN, Matrix.sub_mul 1 P C, Matrix.one_mul, hPC, sub_self, Matrix.zero_mul, sub_zero]
  have hsplit : ∀ Z : Matrix (Fin k) (Fin n) K, ∀ M : Matrix (Fin k) (Fin k) K, Mᵀ = M → M * M = M →
      trace (M * Z * W * (M * Z)ᵀ) = trace (Z * W * Zᵀ * M) := by
    intro Z M hs hp
    rw [transpose_mul, hs]
    rw [show M * Z * W * (Zᵀ * M) = M * (Z * W * Zᵀ * M) by simp only [Matrix.mul_assoc], trace_mul_comm,
      show Z * W * Zᵀ * M * M = Z * W * Zᵀ * (M * M) by simp only [Matrix.mul_assoc], hp]
  have hge : trace (N * X * W * (N * X)ᵀ) ≤ trace (X * W * Xᵀ) := by
    have e1 := hsplit X N hNs hNp
    have e2 := hsplit X P h1 h2
    have e3 : trace (X * W * Xᵀ) = trace (X * W * Xᵀ * N) + trace (X * W * Xᵀ * P) := by
      rw [← trace_add, ← Matrix.mul_add, hN, sub_add_cancel, Matrix.mul_one]
    rw [e3, e1, ← e2]
    linarith [hpos (P * X)]
  refine le_trans ?_ hge
  rw [hNX, hsplit A N hNs hNp, hG, diag_conj]
  -- the diagonal of `Rᵀ P R`
  have hT : ∀ (M : Matrix (Fin k) (Fin k) K), Mᵀ = M → M * M = M → ∀ l, 0 ≤ (Rᵀ * M * R) l l := by
    intro M hs hp l
    have : Rᵀ * M * R = (M * R)ᵀ * (M * R) := by
      rw [transpose_mul, hs, Matrix.mul_assoc, Matrix.mul_assoc, ← Matrix.mul_assoc M M, hp]
    rw [this, mul_apply]
    exact Finset.sum_nonneg fun i _ => mul_self_nonneg _
  have hNP : ∀ l, (Rᵀ * N * R) l l = 1 - (Rᵀ * P * R) l l := by
    intro l
    rw [hN, Matrix.mul_sub, Matrix.mul_one, Matrix.sub_mul, hR, Matrix.sub_apply, Matrix.one_apply_eq]
  have hsum : ∑ l, (Rᵀ * P * R) l l ≤ r := by
    have e0 : ∑ l, (Rᵀ * P * R) l l = trace (P * (R * Rᵀ)) := by
      rw [← Matrix.mul_assoc, trace_mul_comm, ← Matrix.mul_assoc]
      rfl
    have e1 : trace P = trace (P * (R * Rᵀ)) + trace (P * (1 - R * Rᵀ)) := by
      rw [← trace_add, ← Matrix.mul_add, add_sub_cancel, Matrix.mul_one]
    have hE : (1 - R * Rᵀ) * (1 - R * Rᵀ) = 1 - R * Rᵀ := by
      have : R * Rᵀ * (R * Rᵀ) = R * Rᵀ := by
        rw [Matrix.mul_assoc, ← Matrix.mul_assoc Rᵀ R, hR, Matrix.one_mul]
      rw [Matrix.sub_mul, Matrix.one_mul, Matrix.mul_sub, Matrix.mul_one, this, sub_self, sub_zero]
    have hEs : (1 - R * Rᵀ)ᵀ = 1 - R * Rᵀ := by rw [transpose_sub, transpose_one, transpose_mul, transpose_transpose]
    have e2 : trace (P * (1 - R * Rᵀ)) = frob ((1 - R * Rᵀ) * P) := by
      rw [frob_proj _ P h1 h2, hEs, trace_mul_comm ((1 - R * Rᵀ) * P), ← Matrix.mul_assoc, hE, trace_mul_comm]
    rw [e0]
    linarith [frob_nonneg ((1 - R * Rᵀ) * P)]
  have key := head_sum_ge p r lam (fun l => (Rᵀ * P * R) l l) hl hl0 (fun l => ⟨hT P h1 h2 l, by
    have := hT N hNs hNp l
    rw [hNP] at this
    linarith⟩) hsum
  have hfin : (∑ l : Fin p, if (l : Nat) < r then 0 else lam l) + (∑ l : Fin p, if (l : Nat) < r then lam l else 0) =
      ∑ l, lam l := by
    rw [← Finset.sum_add_distrib]
    refine Finset.sum_congr rfl fun l _ => ?_
    split <;> simp
  have hlast : ∑ l, lam l * (Rᵀ * N * R) l l = ∑ l, lam l - ∑ l, lam l * (Rᵀ * P * R) l l := by
    rw [← Finset.sum_sub_distrib]
    refine Finset.sum_congr rfl fun l _ => ?_
    rw [hNP]; ring
  rw [hlast]
  linarith

omit [LinearOrder K] [IsStrictOrderedRing K] in
/-- The error of the projection onto orthonormal vectors. -/
theorem proj_error {n k r : Nat} (W : Matrix (Fin n) (Fin n) K) (hW : Wᵀ = W) (A : Matrix (Fin k) (Fin n) K)
    (V : Matrix (Fin r) (Fin n) K) (hV : V * W * Vᵀ = 1) :
    trace ((A - A * W * Vᵀ * V) * W * (A - A * W * Vᵀ * V)ᵀ) = trace (A * W * Aᵀ) - frob (A * W * Vᵀ) := by
  have h1 : (A - A * W * Vᵀ * V) * W * (A - A * W * Vᵀ * V)ᵀ = A * W * Aᵀ - (A * W * Vᵀ) * (A * W * Vᵀ)ᵀ := by
    have e1 : (A * W * Vᵀ * V)ᵀ = Vᵀ * (V * W * Aᵀ) := by
      simp only [transpose_mul, transpose_transpose, hW, Matrix.mul_assoc]
    have e2 : (A * W * Vᵀ)ᵀ = V * W * Aᵀ := by
      simp only [transpose_mul, transpose_transpose, hW, Matrix.mul_assoc]
    have e3 : A * W * Vᵀ * V * W * (Vᵀ * (V * W * Aᵀ)) = A * W * Vᵀ * (V * W * Aᵀ) := by
      calc A * W * Vᵀ * V * W * (Vᵀ * (V * W * Aᵀ)) = A * W * Vᵀ * (V * W * Vᵀ) * (V * W * Aᵀ) := by
            simp only [Matrix.mul_assoc]
        _ = _ := by rw [hV, Matrix.mul_one]
    rw [transpose_sub, e1, e2, Matrix.sub_mul, Matrix.sub_mul, Matrix.mul_sub, Matrix.mul_sub, e3]
    have e4 : A * W * (Vᵀ * (V * W * Aᵀ)) = A * W * Vᵀ * (V * W * Aᵀ) := by simp only [Matrix.mul_assoc]
    have e5 : A * W * Vᵀ * V * W * Aᵀ = A * W * Vᵀ * (V * W * Aᵀ) := by simp only [Matrix.mul_assoc]
    rw [e4, e5, sub_self, sub_zero]
  rw [h1, trace_sub, frob_eq_trace]

end Opinf
