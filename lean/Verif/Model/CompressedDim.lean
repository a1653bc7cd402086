import Verif.Model.Kron
import Mathlib.Algebra.Order.Ring.Rat
import Mathlib.Data.Rat.Floor
import Mathlib.Data.Nat.Sqrt

/-!
# How `compress_entries()` and `expand_entries()` find the state dimension

The static methods of the quadratic, cubic and quartic operators get a matrix only and compute the state dimension
from its number of columns: by a rounded root for full matrices, by the quadratic formula or by Newton's method
for compressed matrices. Floating-point numbers are exact here: the roots are rounded exactly, and Newton's
iterates are rational numbers.
-/

namespace Opinf

variable {K : Type}

/-- `int(n ** (1 / p))`: the integer part of the root. -/
def floorRoot (p n : Nat) : Nat := Nat.findGreatest (fun s => s ^ p ≤ n) n

/-- `int(round(n ** (1 / p), 0))`: the integer nearest to the root (_nonparametric.py:776, 1230, 1718). With `s`
the integer part, the root is above `s + 1/2` iff `n * 2 ** p > (2 * s + 1) ** p`. -/
def nearestRoot (p n : Nat) : Nat :=
  let s := floorRoot p n
  if (2 * s + 1) ^ p < n * 2 ^ p then s + 1 else s

/-- `int(round(np.sqrt(1 + 8 * b) / 2 - 0.5, 0))`: _nonparametric.py:835. The number is nearest to `r` iff
`2 * r <= sqrt(1 + 8 * b) < 2 * r + 2`; there are no ties since `1 + 8 * b` is odd. -/
def quadDimOf (b : Nat) : Nat := Nat.sqrt (1 + 8 * b) / 2

/-- `int(round(x, 0))`: nearest integer, ties to the even one. -/
def roundEven (x : ℚ) : ℤ :=
  let f := ⌊x⌋
  if x - f < 1 / 2 then f
  else if 1 / 2 < x - f then f + 1
  else if f % 2 = 0 then f else f + 1

/-- The loop of Newton's method: _nonparametric.py:1315-1320, 1813-1819; at most `n` steps from `x`, until two
iterates differ by less than `tol`; `None` if that does not happen. -/
def newtonLoop (tol : ℚ) (step : ℚ → ℚ) : Nat → ℚ → Option ℚ
  | 0, _ => none
  | n + 1, x => if |x - step x| < tol then some (step x) else newtonLoop tol step n (step x)

/-- One step for `r(r+1)(r+2) = 6b`: _nonparametric.py:1316-1317. -/
def cubicStep (b : Nat) (x : ℚ) : ℚ :=
  x - (x ^ 3 + 3 * x ^ 2 + 2 * x - 6 * b) / (3 * x ^ 2 + 6 * x + 2)

/-- One step for `r(r+1)(r+2)(r+3) = 24b`: _nonparametric.py:1814-1816. -/
def quarticStep (b : Nat) (x : ℚ) : ℚ :=
  x - (x ^ 4 + 6 * x ^ 3 + 11 * x ^ 2 + 6 * x - 24 * b) / (4 * x ^ 3 + 18 * x ^ 2 + 22 * x + 6)

/-- `CubicOperator._rfromcompressed(b)`: _nonparametric.py:1311-1323. -/
def cubicDimOf (b : Nat) : Except Err ℤ :=
  match newtonLoop (1 / 4) (cubicStep b) 10 (floorRoot 3 b) with
  | some x => .ok (roundEven x)
  | none => .error .value

/-- `QuarticOperator._rfromcompressed(b)`: _nonparametric.py:1806-1821. -/
def quarticDimOf (b : Nat) : Except Err ℤ :=
  match newtonLoop (1 / 4) (quarticStep b) 10 (floorRoot 4 b) with
  | some x => .ok (roundEven x)
  | none => .error .value

/-- The candidate for the state dimension: _nonparametric.py:835, 1290, 1784. -/
def Kind.candidateDim (k : Kind) (b : Nat) : Except Err ℤ :=
  match k with
  | .quad => .ok (quadDimOf b : ℤ)
  | .cubic => cubicDimOf b
  | .quartic => quarticDimOf b

/-- The state dimension used by `expand_entries` for `b` columns, including the check: _nonparametric.py:834-840,
1289-1295, 1783-1789. A negative candidate (which cannot occur) would fail the check. -/
def Kind.dimOfColumns (k : Kind) (b : Nat) : Except Err Nat :=
  match k.candidateDim b with
  | .error e => .error e
  | .ok r => if 0 ≤ r ∧ k.dim r.toNat = b then .ok r.toNat else .error .value

/-- The matrix a one- or two-dimensional argument stands for: `if np.ndim(H) == 1: H = np.atleast_2d(H)`,
_nonparametric.py:773-774, 832-833, 1227-1228, 1287-1288, 1715-1716, 1781-1782. -/
def rowsOf : List K ⊕ Mat K → Mat K
  | .inl xs => ⟨1, xs.length, [xs]⟩
  | .inr A => A

/-- `compress_entries(H)`: _nonparametric.py:773-792, 1227-1248, 1715-1740. -/
def Kind.compressEntries [AddMonoid K] (k : Kind) (H : List K ⊕ Mat K) : Except Err (Mat K) :=
  let A := rowsOf H
  let r := nearestRoot k.deg A.ncols
  if r ^ k.deg = A.ncols then .ok ⟨A.nrows, k.dim r, A.rows.map (k.compressRow r)⟩ else .error .value

/-- `expand_entries(Hc)`: _nonparametric.py:832-854, 1287-1308, 1781-1803. `junk` is the content of `np.empty`. -/
def Kind.expandEntries [DivisionRing K] (junk : K) (k : Kind) (Hc : List K ⊕ Mat K) : Except Err (Mat K) := do
  let A := rowsOf Hc
  let r ← k.dimOfColumns A.ncols
  .ok ⟨A.nrows, r ^ k.deg, A.rows.map fun hc => scatter (List.replicate (r ^ k.deg) junk) (k.expandWrites r hc)⟩

end Opinf
