import Verif.Model.FiniteDiff
import Verif.Lemmas.LinAlg
import Mathlib.Algebra.Polynomial.Derivative
import Mathlib.Algebra.Polynomial.Eval.Degree
import Mathlib.Tactic.FieldSimp
import Mathlib.Tactic.IntervalCases

/-!
# Lemmas about finite differences
-/

namespace Opinf

open List

variable {K : Type*}

/-- `Σ_j c_j g(j)`. -/
def dotF [Semiring K] : List K → (Nat → K) → K
  | [], _ => 0
  | c :: cs, g => c * g 0 + dotF cs (fun j => g (j + 1))

theorem dotF_add [CommSemiring K] (cs : List K) (f g : Nat → K) :
    dotF cs (fun j => f j + g j) = dotF cs f + dotF cs g := by
  induction cs generalizing f g with
  | nil => simp [dotF]
  | cons c cs ih => simp only [dotF, ih]; ring

theorem dotF_zero [CommSemiring K] (cs : List K) : dotF cs (fun _ => 0) = 0 := by
  induction cs with
  | nil => rfl
  | cons c cs ih => simp only [dotF, ih]; ring

theorem dotF_mul [CommSemiring K] (cs : List K) (a : K) (g : Nat → K) :
    dotF cs (fun j => a * g j) = a * dotF cs g := by
  induction cs generalizing g with
  | nil => simp [dotF]
  | cons c cs ih => simp only [dotF, ih]; ring

theorem dotF_sum [CommSemiring K] (cs : List K) (n : Nat) (f : Nat → Nat → K) :
    dotF cs (fun j => ∑ d ∈ Finset.range n, f d j) = ∑ d ∈ Finset.range n, dotF cs (f d) := by
  induction n with
  | zero => simp [dotF_zero]
  | succ n ih => simp only [Finset.sum_range_succ, dotF_add, ih]

theorem dotF_map_mul [CommSemiring K] (cs : List K) (a : K) (g : Nat → K) :
    dotF (cs.map (a * ·)) g = a * dotF cs g := by
  induction cs generalizing g with
  | nil => simp [dotF]
  | cons c cs ih => simp only [dotF, map_cons, ih]; ring

theorem dot_range_dotF [CommSemiring K] (cs : List K) (m : Nat) (g : Nat → K)
    (h : cs.length ≤ m) : dot cs ((range m).map g) = dotF cs g := by
  induction cs generalizing m g with
  | nil => simp [dotF]
  | cons c cs ih =>
    cases m with
    | zero => simp at h
    | succ m =>
      rw [range_succ_eq_map, map_cons, map_map, dot_cons, dotF]
      congr 1
      exact ih m (fun j => g (j + 1)) (by simpa using h)

theorem drop_range_map {α : Type*} (k i : Nat) (f : Nat → α) :
    ((range k).map f).drop i = (range (k - i)).map fun j => f (i + j) := by
  apply ext_getElem (by simp)
  intro n h1 h2
  simp

theorem take_drop_range_map {α : Type*} (k a b : Nat) (f : Nat → α) (hb : b ≤ k) :
    (((range k).map f).take b).drop a = (range (b - a)).map fun j => f (a + j) := by
  apply ext_getElem (by simp [hb])
  intro n h1 h2
  simp

theorem take_range_map {α : Type*} (k b : Nat) (f : Nat → α) (hb : b ≤ k) :
    ((range k).map f).take b = (range b).map f := by
  apply ext_getElem (by simp [hb])
  intro n h1 h2
  simp

theorem fdLoop_eq [CommSemiring K] [DecidableEq K] (row : List K) (w : Nat) (cs : List K) (j : Nat)
    (acc : List K) (hacc : acc.length = w) (h : j + cs.length + w ≤ row.length + 1) :
    fdLoop row w cs j acc = (range w).map fun i => acc.getD i 0 + dot cs (row.drop (i + j)) := by
  induction cs generalizing j acc with
  | nil =>
    simp only [fdLoop, dot_nil_left, add_zero]
    subst hacc
    exact (map_range_getD acc).symm
  | cons c cs ih =>
    simp only [length_cons] at h
    have hl : ((row.drop j).take w).length = w := by
      rw [length_take, length_drop]; omega
    have hacc' : (if c ≠ 0 then vadd acc (vsmul c ((row.drop j).take w)) else acc).length = w := by
      split
      · simp [hl, hacc]
      · exact hacc
    rw [fdLoop, ih (j + 1) _ hacc' (by omega)]
    apply map_congr_left
    intro i hi
    have hi : i < w := by simpa using hi
    have hij : i + j < row.length := by omega
    have hd : row.drop (i + j) = row[i + j] :: row.drop (i + j + 1) :=
      drop_eq_getElem_cons hij
    rw [hd, dot_cons, show i + (j + 1) = i + j + 1 from rfl]
    have hv : (if c ≠ 0 then vadd acc (vsmul c ((row.drop j).take w)) else acc).getD i 0
        = acc.getD i 0 + c * row[i + j] := by
      by_cases hc : c = 0
      · simp [hc]
      · simp only [ne_eq, hc, not_false_eq_true, if_true, vadd, vsmul, getD_eq_getElem?_getD]
        have e1 : acc[i]? = some acc[i] := getElem?_eq_getElem (by omega)
        have e2 : ((row.drop j).take w)[i]? = some row[i + j] := by
          rw [getElem?_take_of_lt hi, getElem?_drop, Nat.add_comm j i, getElem?_eq_getElem hij]
        rw [getElem?_zipWith, getElem?_map, e1, e2]
        simp
    rw [hv]; ring

/-- A stencil with integer coefficients `c`, denominator `den` and evaluation point at index `off`
differentiates all monomials of degree at most `n` exactly. -/
def Exact (K : Type*) [Field K] (c : List Int) (den off n : Nat) : Prop :=
  ∀ d ≤ n, ∀ t h : K, dotF (c.map fun z : Int => (z : K)) (fun j => (t + ((j : K) - off) * h) ^ d)
    = den * h * (d * t ^ (d - 1))

theorem scaled_eq [Field K] (dt : K) (c : List Int) (den : Nat) :
    scaled dt c den = (c.map fun z : Int => (z : K)).map ((1 / ((den : K) * dt)) * ·) := by
  simp only [scaled, map_map]
  apply map_congr_left
  intro z _
  simp only [Function.comp]
  ring

theorem Exact.poly [Field K] [CharZero K] {c : List Int} {den off n : Nat}
    (hE : Exact K c den off n) (hden : den ≠ 0) (p : Polynomial K) (hp : p.natDegree ≤ n)
    (t0 dt : K) (hdt : dt ≠ 0) (i : Nat) :
    dotF (scaled dt c den) (fun j => p.eval (t0 + ((i + j : Nat) : K) * dt))
      = p.derivative.eval (t0 + ((i + off : Nat) : K) * dt) := by
  set t := t0 + ((i + off : Nat) : K) * dt with ht
  have hgrid : ∀ j : Nat, t0 + ((i + j : Nat) : K) * dt = t + ((j : K) - off) * dt := by
    intro j; rw [ht]; push_cast; ring
  have hev : ∀ x : K, p.eval x = ∑ d ∈ Finset.range (n + 1), p.coeff d * x ^ d := by
    intro x
    exact Polynomial.eval_eq_sum_range' (Nat.lt_succ_of_le hp) x
  have hder : p.derivative.eval t = ∑ d ∈ Finset.range (n + 1), p.coeff d * (d * t ^ (d - 1)) := by
    conv_lhs => rw [p.as_sum_range_C_mul_X_pow' (Nat.lt_succ_of_le hp)]
    rw [Polynomial.derivative_sum, Polynomial.eval_finsetSum]
    apply Finset.sum_congr rfl
    intro d _
    rw [Polynomial.derivative_C_mul_X_pow]
    simp [mul_assoc]
  have hden' : (den : K) ≠ 0 := by exact_mod_cast hden
  rw [scaled_eq, dotF_map_mul, hder]
  simp only [hgrid, hev]
  rw [dotF_sum, Finset.mul_sum]
  apply Finset.sum_congr rfl
  intro d hd
  rw [dotF_mul, hE d (by simpa [Nat.lt_succ_iff] using hd) t dt]
  field_simp

theorem exact_fwd1 [Field K] : Exact K [-1, 1] 1 0 1 := by
  intro d hd t h; interval_cases d <;> simp [dotF]
theorem exact_fwd2 [Field K] : Exact K [-3, 4, -1] 2 0 2 := by
  intro d hd t h; interval_cases d <;> simp [dotF] <;> ring
theorem exact_fwd3 [Field K] : Exact K [-11, 18, -9, 2] 6 0 3 := by
  intro d hd t h; interval_cases d <;> simp [dotF] <;> ring
theorem exact_fwd4 [Field K] : Exact K [-25, 48, -36, 16, -3] 12 0 4 := by
  intro d hd t h; interval_cases d <;> simp [dotF] <;> ring
theorem exact_fwd5 [Field K] : Exact K [-137, 300, -300, 200, -75, 12] 60 0 5 := by
  intro d hd t h; interval_cases d <;> simp [dotF] <;> ring
theorem exact_fwd6 [Field K] : Exact K [-147, 360, -450, 400, -225, 72, -10] 60 0 6 := by
  intro d hd t h; interval_cases d <;> simp [dotF] <;> ring
theorem exact_bwd1 [Field K] : Exact K [-1, 1] 1 1 1 := by
  intro d hd t h; interval_cases d <;> simp [dotF]
theorem exact_bwd2 [Field K] : Exact K [1, -4, 3] 2 2 2 := by
  intro d hd t h; interval_cases d <;> simp [dotF] <;> ring
theorem exact_bwd3 [Field K] : Exact K [-2, 9, -18, 11] 6 3 3 := by
  intro d hd t h; interval_cases d <;> simp [dotF] <;> ring
theorem exact_bwd4 [Field K] : Exact K [3, -16, 36, -48, 25] 12 4 4 := by
  intro d hd t h; interval_cases d <;> simp [dotF] <;> ring
theorem exact_bwd5 [Field K] : Exact K [-12, 75, -200, 300, -300, 137] 60 5 5 := by
  intro d hd t h; interval_cases d <;> simp [dotF] <;> ring
theorem exact_bwd6 [Field K] : Exact K [10, -72, 225, -400, 450, -360, 147] 60 6 6 := by
  intro d hd t h; interval_cases d <;> simp [dotF] <;> ring
theorem exact_ctr2 [Field K] : Exact K [-1, 0, 1] 2 1 2 := by
  intro d hd t h; interval_cases d <;> simp [dotF] <;> ring
theorem exact_ctr4 [Field K] : Exact K [1, -8, 0, 8, -1] 12 2 4 := by
  intro d hd t h; interval_cases d <;> simp [dotF] <;> ring
theorem exact_ctr6 [Field K] : Exact K [-1, 9, -45, 0, 45, -9, 1] 60 3 6 := by
  intro d hd t h; interval_cases d <;> simp [dotF] <;> ring
theorem exact_front41 [Field K] : Exact K [-3, -10, 18, -6, 1] 12 1 4 := by
  intro d hd t h; interval_cases d <;> simp [dotF] <;> ring
theorem exact_front61 [Field K] : Exact K [-10, -77, 150, -100, 50, -15, 2] 60 1 6 := by
  intro d hd t h; interval_cases d <;> simp [dotF] <;> ring
theorem exact_front62 [Field K] : Exact K [2, -24, -35, 80, -30, 8, -1] 60 2 6 := by
  intro d hd t h; interval_cases d <;> simp [dotF] <;> ring
theorem exact_back20 [Field K] : Exact K [1, -4, 3] 2 2 2 := exact_bwd2
theorem exact_back40 [Field K] : Exact K [3, -16, 36, -48, 25] 12 4 4 := exact_bwd4
theorem exact_back41 [Field K] : Exact K [-1, 6, -18, 10, 3] 12 3 4 := by
  intro d hd t h; interval_cases d <;> simp [dotF] <;> ring
theorem exact_back60 [Field K] : Exact K [10, -72, 225, -400, 450, -360, 147] 60 6 6 := exact_bwd6
theorem exact_back61 [Field K] : Exact K [-2, 15, -50, 100, -150, 77, 10] 60 5 6 := by
  intro d hd t h; interval_cases d <;> simp [dotF] <;> ring
theorem exact_back62 [Field K] : Exact K [1, -8, 30, -80, 35, 24, -2] 60 4 6 := by
  intro d hd t h; interval_cases d <;> simp [dotF] <;> ring

theorem negRev_scaled [Field K] (dt : K) (c : List Int) (den : Nat) :
    negRev (scaled dt c den) = scaled dt (c.reverse.map (- ·)) den := by
  simp only [negRev, scaled, map_reverse, map_map]
  congr 1
  apply map_congr_left
  intro z _
  simp only [Function.comp]
  push_cast
  ring

theorem pySlice_fwd {α : Type*} (n : Nat) (hn : 0 < n) (l : List α) :
    pySlice 0 (some (-(n : Int))) l = l.take (l.length - n) := by
  have h1 : -(n : Int) < 0 := by omega
  simp only [pySlice, h1, if_true]
  simp
  omega

theorem pySlice_bwd {α : Type*} (n : Nat) (l : List α) :
    pySlice (n : Int) none l = l.drop n := by
  have h1 : ¬ ((n : Int) < 0) := by omega
  simp only [pySlice, h1, if_false, take_length, Int.toNat_natCast]
  rcases Nat.le_total n l.length with h | h
  · rw [min_eq_left h]
  · rw [min_eq_right h, drop_length, drop_eq_nil_of_le h]

theorem pySlice_ctr {α : Type*} (n : Nat) (hn : 0 < n) (l : List α) :
    pySlice (n : Int) (some (-(n : Int))) l = (l.take (l.length - n)).drop n := by
  have h1 : ¬ ((n : Int) < 0) := by omega
  have h2 : -(n : Int) < 0 := by omega
  simp only [pySlice, h1, h2, if_true, if_false, Int.toNat_natCast]
  have e : (-(n : Int) + (l.length : Int)).toNat = l.length - n := by omega
  rw [e]
  rcases Nat.le_total n l.length with h | h
  · rw [min_eq_left h]
  · rw [min_eq_right h, drop_eq_nil_of_le (by simp), drop_eq_nil_of_le (by simp; omega)]

/-- Row of a pure scheme, written column by column. -/
theorem fdLoop_rows [CommSemiring K] [DecidableEq K] (cs : List K) (k n : Nat) (f : Nat → K)
    (hn : cs.length = n + 1) (hk : n ≤ k) :
    fdLoop ((range k).map f) (k - n) cs 0 (replicate (k - n) 0)
      = (range (k - n)).map fun i => dotF cs fun j => f (i + j) := by
  rw [fdLoop_eq _ _ _ _ _ (by simp) (by simp [hn]; omega)]
  apply map_congr_left
  intro i hi
  have hi : i < k - n := by simpa using hi
  rw [Nat.add_zero, drop_range_map, dot_range_dotF _ _ _ (by omega)]
  simp [hi]

end Opinf
