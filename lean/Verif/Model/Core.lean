import Mathlib.Algebra.Field.Basic
import Mathlib.Algebra.BigOperators.Group.List.Basic

/-!
# Shared vocabulary of the model

Vectors are `List K`, matrices are lists of rows together with their declared
shape (numpy arrays know their shape even when they are empty).
-/

namespace Opinf

/-- Exceptions raised by the modelled Python code (only the class matters, not the message).
`dimensionality` is `opinf.errors.DimensionalityError` (/repo/src/opinf/errors.py:5),
`verification` is `opinf.errors.VerificationError`. `nonfinite` is not an exception: it stands for a
result containing NaN or Inf because of a division by zero, which numpy returns with a warning only. -/
inductive Err
  | value | type | attribute | index | runtime | dimensionality | verification
  | fileExists | fileNotFound | loadfileFormat | notImplemented | linalg | timeout | key
  | nonfinite | zeroDivision
  deriving DecidableEq, Repr

/-- Value equality of results (used only by the concrete tests in `Props`). -/
instance {ε α : Type*} [DecidableEq ε] [DecidableEq α] : DecidableEq (Except ε α) := fun a b =>
  match a, b with
  | .ok x, .ok y => if h : x = y then isTrue (by rw [h]) else isFalse (by simpa using h)
  | .error x, .error y => if h : x = y then isTrue (by rw [h]) else isFalse (by simpa using h)
  | .ok _, .error _ => isFalse (by simp)
  | .error _, .ok _ => isFalse (by simp)

variable {K : Type*}

/-- Inner product `a @ b` of two one-dimensional numpy arrays (of equal length). -/
def dot [Semiring K] (a b : List K) : K := (List.zipWith (· * ·) a b).sum

/-- Matrix-vector product `A @ x`; the matrix is a list of rows. -/
def matVec [Semiring K] (A : List (List K)) (x : List K) : List K := A.map (dot · x)

/-- `a + b` for one-dimensional arrays of equal length. -/
def vadd [Add K] (a b : List K) : List K := List.zipWith (· + ·) a b

/-- `a - b` for one-dimensional arrays of equal length. -/
def vsub [Sub K] (a b : List K) : List K := List.zipWith (· - ·) a b

/-- `c * a` for a scalar and a one-dimensional array. -/
def vsmul [Mul K] (c : K) (a : List K) : List K := a.map (c * ·)

/-- `np.kron(a, b)` for one-dimensional arrays. -/
def kron [Mul K] (a b : List K) : List K := a.flatMap fun x => b.map (x * ·)

/-- A two-dimensional numpy array: shape and rows. -/
structure Mat (K : Type*) where
  nrows : Nat
  ncols : Nat
  rows : List (List K)
  deriving DecidableEq, Repr

/-- The rows agree with the declared shape (true of every numpy array). -/
def Mat.WF (A : Mat K) : Prop := A.rows.length = A.nrows ∧ ∀ row ∈ A.rows, row.length = A.ncols

instance (A : Mat K) : Decidable A.WF := by unfold Mat.WF; infer_instance

end Opinf
