import Verif.Lemmas.TlsMatrix

/-!
# The perturbation found by total least squares, as matrices
-/

namespace Opinf

open Matrix

variable {K : Type}

/-- `[A B]`. -/
def hM {k d r : Nat} (A : Matrix (Fin k) (Fin d) K) (B : Matrix (Fin k) (Fin r) K) :
    Matrix (Fin k) (Fin (d + r)) K := Matrix.of fun i => Fin.append (A i) (B i)

theorem hM_left {k d r : Nat} (A : Matrix (Fin k) (Fin d) K) (B : Matrix (Fin k) (Fin r) K) (i : Fin k)
    (j : Fin d) : hM A B i (Fin.castAdd r j) = A i j := by simp [hM]

theorem hM_right {k d r : Nat} (A : Matrix (Fin k) (Fin d) K) (B : Matrix (Fin k) (Fin r) K) (i : Fin k)
    (j : Fin r) : hM A B i (Fin.natAdd d j) = B i j := by simp [hM]

theorem hM_ext {k d r : Nat} (M N : Matrix (Fin k) (Fin (d + r)) K)
    (h1 : ∀ i (j : Fin d), M i (Fin.castAdd r j) = N i (Fin.castAdd r j))
    (h2 : ∀ i (j : Fin r), M i (Fin.natAdd d j) = N i (Fin.natAdd d j)) : M = N := by
  ext i j
  exact Fin.addCases (motive := fun j => M i j = N i j) (h1 i) (h2 i) j

theorem hM_mul [CommSemiring K] {k l d r : Nat} (A : Matrix (Fin k) (Fin d) K) (B : Matrix (Fin k) (Fin r) K)
    (X : Matrix (Fin l) (Fin d) K) (Y : Matrix (Fin l) (Fin r) K) :
    hM A B * (hM X Y)ᵀ = A * Xᵀ + B * Yᵀ := by
  ext i j
  simp only [mul_apply, transpose_apply, Fin.sum_univ_add, hM_left, hM_right, Matrix.add_apply]

theorem hM_add [Add K] {k d r : Nat} (A A' : Matrix (Fin k) (Fin d) K) (B B' : Matrix (Fin k) (Fin r) K) :
    hM A B + hM A' B' = hM (A + A') (B + B') := by
  apply hM_ext <;> intro i j <;> simp only [hM_left, hM_right, Matrix.add_apply]

theorem frob_hM [Field K] {k d r : Nat} (A : Matrix (Fin k) (Fin d) K) (B : Matrix (Fin k) (Fin r) K) :
    frob (hM A B) = frob A + frob B := by
  simp only [frob, Fin.sum_univ_add, hM_left, hM_right, Finset.sum_add_distrib]

theorem frob_transpose [Field K] {k d : Nat} (A : Matrix (Fin k) (Fin d) K) : frob Aᵀ = frob A := by
  simp only [frob, transpose_apply]
  exact Finset.sum_comm

/-- `s` with the first `d` entries replaced by zero. -/
def tailOf [Zero K] (d r : Nat) (s : Fin (d + r) → K) : Fin (d + r) → K :=
  Fin.append (fun _ => 0) fun j => s (Fin.natAdd d j)

/-- Dropping the trailing part of the decomposition: the squared size of the perturbation. -/
theorem tail_frob [Field K] (k d r : Nat) (Phi : Matrix (Fin k) (Fin (d + r)) K) (s : Fin (d + r) → K)
    (Psi : Matrix (Fin (d + r)) (Fin (d + r)) K) (hPhi : Phiᵀ * Phi = 1) (hPsi : Psi * Psiᵀ = 1) :
    frob (-(Phi * diagonal (tailOf d r s) * Psi)) = ∑ j : Fin r, s (Fin.natAdd d j) ^ 2 := by
  rw [frob_neg, frob_eq_trace, transpose_mul, Matrix.mul_assoc, ← Matrix.mul_assoc Psi, hPsi, Matrix.one_mul,
    transpose_mul, diagonal_transpose, trace_mul_comm, Matrix.mul_assoc, ← Matrix.mul_assoc Phiᵀ, hPhi,
    Matrix.one_mul, diagonal_mul_diagonal, trace_diagonal, Fin.sum_univ_add]
  simp [tailOf, pow_two]

/-- Dropping the trailing part of the decomposition makes the system solvable by the computed solution. -/
theorem tail_solves [Field K] (k d r : Nat) (C Phi : Matrix (Fin k) (Fin (d + r)) K) (s : Fin (d + r) → K)
    (Psi : Matrix (Fin (d + r)) (Fin (d + r)) K) (hPsi : Psi * Psiᵀ = 1) (hC : C = Phi * diagonal s * Psi)
    (ZZ Y : Matrix (Fin r) (Fin r) K) (DZ X : Matrix (Fin r) (Fin d) K)
    (hZ : ∀ i j, ZZ i j = Psi (Fin.natAdd d i) (Fin.natAdd d j))
    (hD : ∀ i j, DZ i j = Psi (Fin.natAdd d i) (Fin.castAdd r j)) (hX : ZZ * X = DZ) (hY : ZZ * Y = 1) :
    (C + -(Phi * diagonal (tailOf d r s) * Psi)) * (hM (-X) (-1 : Matrix (Fin r) (Fin r) K))ᵀ = 0 := by
  have hY' : Y * ZZ = 1 := mul_eq_one_comm.mp hY
  set N := hM X (1 : Matrix (Fin r) (Fin r) K) with hN
  have hneg : hM (-X) (-1 : Matrix (Fin r) (Fin r) K) = -N := by
    rw [hN]; apply hM_ext <;> intro i j <;> simp only [hM_left, hM_right, Matrix.neg_apply]
  have hT : ∀ i l, (ZZ * N) i l = Psi (Fin.natAdd d i) l := by
    intro i l
    refine Fin.addCases (motive := fun l => (ZZ * N) i l = Psi (Fin.natAdd d i) l) ?_ ?_ l
    · intro j
      rw [← hD, ← hX, mul_apply, mul_apply]
      exact Finset.sum_congr rfl fun _ _ => by rw [hN, hM_left]
    · intro j
      rw [← hZ, mul_apply]
      conv_rhs => rw [← Matrix.mul_one ZZ, mul_apply]
      exact Finset.sum_congr rfl fun _ _ => by rw [hN, hM_right]
  have hhead : ∀ (i : Fin d) (l : Fin r), (Psi * (ZZ * N)ᵀ) (Fin.castAdd r i) l = 0 := by
    intro i l
    have h1 : (Psi * (ZZ * N)ᵀ) (Fin.castAdd r i) l = (Psi * Psiᵀ) (Fin.castAdd r i) (Fin.natAdd d l) := by
      rw [mul_apply, mul_apply]
      exact Finset.sum_congr rfl fun a _ => by rw [transpose_apply, transpose_apply, hT]
    rw [h1, hPsi, one_apply_ne]
    intro h
    have := congrArg Fin.val h
    simp at this
    omega
  have hzero : ∀ (i : Fin d) (l : Fin r), (Psi * Nᵀ) (Fin.castAdd r i) l = 0 := by
    intro i l
    have h2 : Psi * Nᵀ = (Psi * (ZZ * N)ᵀ) * Yᵀ := by
      rw [transpose_mul, Matrix.mul_assoc, Matrix.mul_assoc, ← transpose_mul, hY', transpose_one, Matrix.mul_one]
    rw [h2, mul_apply]
    exact Finset.sum_eq_zero fun a _ => by rw [hhead, zero_mul]
  have hdiff : C + -(Phi * diagonal (tailOf d r s) * Psi)
      = Phi * (diagonal (fun i => s i - tailOf d r s i) * Psi) := by
    rw [hC, ← sub_eq_add_neg, ← Matrix.sub_mul, ← Matrix.mul_sub, diagonal_sub, Matrix.mul_assoc]
  rw [hneg, hdiff, transpose_neg, Matrix.mul_neg, Matrix.mul_assoc, Matrix.mul_assoc]
  have : diagonal (fun i => s i - tailOf d r s i) * (Psi * Nᵀ) = 0 := by
    apply Matrix.ext
    intro i l
    rw [diagonal_mul, Matrix.zero_apply]
    refine Fin.addCases (motive := fun i => (s i - tailOf d r s i) * (Psi * Nᵀ) i l = 0) ?_ ?_ i
    · intro j; rw [hzero, mul_zero]
    · intro j; simp [tailOf]
  rw [this, Matrix.mul_zero, neg_zero]

/-- The squared size of the matrix whose norm the code reports. -/
theorem reported_frob [Field K] (k d r : Nat) (Phi : Matrix (Fin k) (Fin (d + r)) K) (s : Fin (d + r) → K)
    (Psi : Matrix (Fin (d + r)) (Fin (d + r)) K) (hPhi : Phiᵀ * Phi = 1) (hPsi : Psi * Psiᵀ = 1)
    (ZZ : Matrix (Fin r) (Fin r) K) (DZ : Matrix (Fin r) (Fin d) K) (P : Matrix (Fin k) (Fin r) K)
    (hZ : ∀ i j, ZZ i j = Psi (Fin.natAdd d i) (Fin.natAdd d j))
    (hD : ∀ i j, DZ i j = Psi (Fin.natAdd d i) (Fin.castAdd r j))
    (hP : ∀ i j, P i j = Phi i (Fin.natAdd d j) * s (Fin.natAdd d j)) :
    frob (P * hM ZZ DZ) = ∑ j : Fin r, s (Fin.natAdd d j) ^ 2 := by
  have hW : hM ZZ DZ * (hM ZZ DZ)ᵀ = 1 := by
    rw [hM_mul]
    ext i j
    have := congrFun (congrFun hPsi (Fin.natAdd d i)) (Fin.natAdd d j)
    rw [mul_apply, Fin.sum_univ_add] at this
    rw [Matrix.add_apply, mul_apply, mul_apply, add_comm]
    simp only [transpose_apply, hZ, hD] at this ⊢
    rw [this, one_apply, one_apply]
    simp
  rw [frob_eq_trace, transpose_mul, Matrix.mul_assoc, ← Matrix.mul_assoc (hM ZZ DZ), hW, Matrix.one_mul,
    trace_mul_comm, trace]
  refine Finset.sum_congr rfl fun j _ => ?_
  have := congrFun (congrFun hPhi (Fin.natAdd d j)) (Fin.natAdd d j)
  rw [mul_apply, one_apply_eq] at this
  rw [diag_apply, mul_apply]
  simp only [transpose_apply, hP] at this ⊢
  rw [show (∑ x, Phi x (Fin.natAdd d j) * s (Fin.natAdd d j) * (Phi x (Fin.natAdd d j) * s (Fin.natAdd d j)))
    = (∑ x, Phi x (Fin.natAdd d j) * Phi x (Fin.natAdd d j)) * s (Fin.natAdd d j) ^ 2 from by
      rw [Finset.sum_mul]; exact Finset.sum_congr rfl fun _ _ => by ring]
  rw [this, one_mul]

end Opinf
