import Mathlib.LinearAlgebra.Matrix.NonsingularInverse
import Mathlib.LinearAlgebra.Matrix.Trace
import Mathlib.Algebra.Order.Field.Basic
import Mathlib.Algebra.Order.BigOperators.Ring.Finset
import Mathlib.Algebra.BigOperators.Fin
import Mathlib.Tactic.Linarith
import Mathlib.Tactic.Ring

/-!
# The lower bound for total least squares (Eckart–Young), for matrices over an ordered field
-/

namespace Opinf

open Matrix

variable {K : Type} [Field K] [LinearOrder K] [IsStrictOrderedRing K]

/-- The square of the Frobenius norm. -/
def frob {m n : Type} [Fintype m] [Fintype n] (A : Matrix m n K) : K := ∑ i, ∑ j, A i j ^ 2

omit [LinearOrder K] [IsStrictOrderedRing K] in
theorem frob_eq_trace {m n : Type} [Fintype m] [Fintype n] (A : Matrix m n K) : frob A = trace (A * Aᵀ) := by
  simp only [frob, trace, diag_apply, mul_apply, transpose_apply, pow_two]

theorem frob_nonneg {m n : Type} [Fintype m] [Fintype n] (A : Matrix m n K) : 0 ≤ frob A :=
  Finset.sum_nonneg fun _ _ => Finset.sum_nonneg fun _ _ => sq_nonneg _

omit [LinearOrder K] [IsStrictOrderedRing K] in
theorem frob_neg {m n : Type} [Fintype m] [Fintype n] (A : Matrix m n K) : frob (-A) = frob A := by
  simp [frob]

omit [LinearOrder K] [IsStrictOrderedRing K] in
/-- The square of the Frobenius norm after a symmetric projection. -/
theorem frob_proj {m n : Type} [Fintype m] [Fintype n] [DecidableEq n] (A : Matrix m n K) (P : Matrix n n K)
    (hs : Pᵀ = P) (hp : P * P = P) : frob (A * P) = trace (A * P * Aᵀ) := by
  rw [frob_eq_trace, transpose_mul, hs, Matrix.mul_assoc A P, ← Matrix.mul_assoc P P, hp, Matrix.mul_assoc]

/-- The diagonal of a symmetric projection lies in `[0, 1]`. -/
theorem proj_diag {n : Type} [Fintype n] [DecidableEq n] (P : Matrix n n K) (hs : Pᵀ = P) (hp : P * P = P)
    (i : n) : 0 ≤ P i i ∧ P i i ≤ 1 := by
  have key : ∀ Q : Matrix n n K, Qᵀ = Q → Q * Q = Q → 0 ≤ Q i i := by
    intro Q h1 h2
    rw [← h2, mul_apply]
    refine Finset.sum_nonneg fun j _ => ?_
    have : Q j i = Q i j := by conv_lhs => rw [← h1]
                               rfl
    rw [this]
    exact mul_self_nonneg _
  refine ⟨key P hs hp, ?_⟩
  have := key (1 - P) (by rw [transpose_sub, transpose_one, hs]) (by
    rw [Matrix.sub_mul, Matrix.one_mul, Matrix.mul_sub, Matrix.mul_one, hp, sub_self, sub_zero])
  simp at this
  exact this

/-- Weights between 0 and 1 with sum `r` cannot beat the `r` smallest values. -/
theorem tail_sum_le (d r : Nat) (a t : Fin (d + r) → K) (ha : ∀ i j, i ≤ j → a j ≤ a i)
    (ht : ∀ i, 0 ≤ t i ∧ t i ≤ 1) (hsum : ∑ i, t i = r) :
    ∑ j : Fin r, a (Fin.natAdd d j) ≤ ∑ i, a i * t i := by
  rcases Nat.eq_zero_or_pos r with rfl | hr
  · have h0 : ∀ i, t i = 0 := by
      intro i
      have := (Finset.sum_eq_zero_iff_of_nonneg fun i _ => (ht i).1).mp (by simpa using hsum)
      exact this i (Finset.mem_univ _)
    simp [h0]
  · rw [Fin.sum_univ_add] at hsum ⊢
    set c := a (Fin.natAdd d ⟨0, hr⟩) with hc
    have h1 : ∑ i : Fin d, c * t (Fin.castAdd r i) ≤ ∑ i : Fin d, a (Fin.castAdd r i) * t (Fin.castAdd r i) :=
      Finset.sum_le_sum fun i _ => mul_le_mul_of_nonneg_right (ha _ _ (by
        rw [Fin.le_def]; simp; try omega)) (ht _).1
    have h2 : ∑ j : Fin r, a (Fin.natAdd d j) * (1 - t (Fin.natAdd d j)) ≤ ∑ j : Fin r, c * (1 - t (Fin.natAdd d j)) :=
      Finset.sum_le_sum fun j _ => mul_le_mul_of_nonneg_right (ha _ _ (by
        rw [Fin.le_def]; simp)) (by linarith [(ht (Fin.natAdd d j)).2])
    rw [← Finset.mul_sum] at h1 h2
    simp only [mul_sub, mul_one, Finset.sum_sub_distrib] at h2
    simp only [Finset.sum_const, Finset.card_univ, Fintype.card_fin, nsmul_eq_mul] at h2
    have h3 : (r : K) * c - c * ∑ j : Fin r, t (Fin.natAdd d j) = c * ∑ i : Fin d, t (Fin.castAdd r i) := by
      rw [← hsum]; ring
    have h4 : c * ((r : K) * 1 - ∑ j : Fin r, t (Fin.natAdd d j)) = c * ∑ i : Fin d, t (Fin.castAdd r i) := by
      rw [← h3]; ring
    linarith

/-- **Eckart–Young.** If `C = Φ diag(s) Ψ` with orthonormal columns of `Φ` and an orthogonal `Ψ`, the
singular values decreasing, then every `E` such that `C + E` maps `r` independent vectors (the rows of `X`) to
0 has `‖E‖² ≥` the sum of the squares of the `r` smallest singular values. -/
theorem tls_lower (k d r : Nat) (C E : Matrix (Fin k) (Fin (d + r)) K) (Phi : Matrix (Fin k) (Fin (d + r)) K)
    (s : Fin (d + r) → K) (Psi : Matrix (Fin (d + r)) (Fin (d + r)) K) (hPhi : Phiᵀ * Phi = 1)
    (hPsi : Psi * Psiᵀ = 1) (hC : C = Phi * diagonal s * Psi) (hs : ∀ i j, i ≤ j → s j ≤ s i)
    (hpos : ∀ i, 0 ≤ s i) (X : Matrix (Fin r) (Fin (d + r)) K) (hX : IsUnit (X * Xᵀ).det)
    (hE : (C + E) * Xᵀ = 0) : ∑ j : Fin r, s (Fin.natAdd d j) ^ 2 ≤ frob E := by
  set G := X * Xᵀ with hG
  have hGs : Gᵀ = G := by rw [hG, transpose_mul, transpose_transpose]
  set P := Xᵀ * G⁻¹ * X with hP
  have hPs : Pᵀ = P := by
    rw [hP, transpose_mul, transpose_mul, transpose_transpose, transpose_nonsing_inv, hGs, Matrix.mul_assoc]
  have hPp : P * P = P := by
    calc P * P = Xᵀ * (G⁻¹ * (X * Xᵀ)) * (G⁻¹ * X) := by simp only [hP, Matrix.mul_assoc]
      _ = P := by rw [← hG, nonsing_inv_mul _ hX, Matrix.mul_one, hP, Matrix.mul_assoc]
  have hPt : trace P = r := by
    rw [hP, trace_mul_comm, ← Matrix.mul_assoc, ← hG, mul_nonsing_inv _ hX, trace_one, Fintype.card_fin]
  have hEP : E * P = -(C * P) := by
    have : (C + E) * P = 0 := by
      rw [hP, ← Matrix.mul_assoc, ← Matrix.mul_assoc, hE, Matrix.zero_mul, Matrix.zero_mul]
    rw [Matrix.add_mul] at this
    exact eq_neg_of_add_eq_zero_right this
  have hPsi' : Psiᵀ * Psi = 1 := mul_eq_one_comm.mp hPsi
  set T := Psi * P * Psiᵀ with hT
  have hTs : Tᵀ = T := by
    rw [hT, transpose_mul, transpose_mul, transpose_transpose, hPs, ← Matrix.mul_assoc]
  have hTp : T * T = T := by
    calc T * T = Psi * P * (Psiᵀ * Psi) * (P * Psiᵀ) := by simp only [hT, Matrix.mul_assoc]
      _ = Psi * (P * P) * Psiᵀ := by rw [hPsi', Matrix.mul_one]; simp only [Matrix.mul_assoc]
      _ = T := by rw [hPp, hT]
  have hTt : ∑ i, T i i = r := by
    have : trace T = r := by
      rw [hT, Matrix.mul_assoc, trace_mul_comm, Matrix.mul_assoc, hPsi', Matrix.mul_one, hPt]
    rw [← this]; rfl
  -- the part of `E` along the rows of `X`
  have h1 : frob E = frob (E * P) + frob (E * (1 - P)) := by
    rw [frob_proj E P hPs hPp, frob_proj E (1 - P) (by rw [transpose_sub, transpose_one, hPs]) (by
      rw [Matrix.sub_mul, Matrix.one_mul, Matrix.mul_sub, Matrix.mul_one, hPp, sub_self, sub_zero]), ← trace_add, ← Matrix.add_mul, ← Matrix.mul_add]
    simp [frob_eq_trace]
  have h2 : frob (C * P) = ∑ i, s i ^ 2 * T i i := by
    rw [frob_proj C P hPs hPp, hC]
    have : Phi * diagonal s * Psi * P * (Phi * diagonal s * Psi)ᵀ
        = Phi * (diagonal s * T * diagonal s) * Phiᵀ := by
      simp only [transpose_mul, diagonal_transpose, hT, Matrix.mul_assoc]
    rw [this, Matrix.mul_assoc, trace_mul_comm, Matrix.mul_assoc, hPhi, Matrix.mul_one]
    simp only [trace, diag_apply, mul_diagonal, diagonal_mul]
    exact Finset.sum_congr rfl fun i _ => by ring
  have h3 := tail_sum_le d r (fun i => s i ^ 2) (fun i => T i i) (fun i j hij => by
    have := hs i j hij
    have h0 := hpos j
    nlinarith) (proj_diag T hTs hTp) hTt
  rw [h1, hEP, frob_neg, h2]
  linarith [frob_nonneg (E * (1 - P))]

/-- `X Xᵀ` is invertible for `X = [A, -1]`. -/
theorem gram_unit (d r : Nat) (X : Matrix (Fin r) (Fin (d + r)) K)
    (hX : ∀ i j, X i (Fin.natAdd d j) = if i = j then -1 else 0) : IsUnit (X * Xᵀ).det := by
  rw [← Matrix.isUnit_iff_isUnit_det]
  rw [← Matrix.mulVec_injective_iff_isUnit]
  intro v w h
  have h0 : (X * Xᵀ) *ᵥ (v - w) = 0 := by rw [mulVec_sub, sub_eq_zero]; exact h
  have h1 : (Xᵀ *ᵥ (v - w)) ⬝ᵥ (Xᵀ *ᵥ (v - w)) = 0 := by
    rw [dotProduct_mulVec, vecMul_transpose, mulVec_mulVec, h0, zero_dotProduct]
  have h2 : ∀ i, (Xᵀ *ᵥ (v - w)) i = 0 := by
    intro i
    have := (Finset.sum_eq_zero_iff_of_nonneg fun i _ => mul_self_nonneg _).mp h1 i (Finset.mem_univ _)
    exact mul_self_eq_zero.mp this
  funext j
  have := h2 (Fin.natAdd d j)
  simp only [mulVec, dotProduct, transpose_apply, hX, Pi.sub_apply] at this
  simp at this
  linarith

end Opinf
