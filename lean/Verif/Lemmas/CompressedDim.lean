import Verif.Model.CompressedDim
import Verif.Lemmas.Kron
import Mathlib.Tactic.Linarith
import Mathlib.Tactic.FieldSimp
import Mathlib.Tactic.NormNum
import Mathlib.Tactic.IntervalCases
import Mathlib.Logic.Function.Iterate

/-! Lemmas on rounded roots and Newton's method. -/

namespace Opinf

/-! ### roots -/

theorem floorRoot_le {p n : Nat} (hp : p ≠ 0) : floorRoot p n ^ p ≤ n :=
  Nat.findGreatest_spec (P := fun s => s ^ p ≤ n) (m := 0) (Nat.zero_le _) (by simp [hp])

theorem lt_floorRoot {p n : Nat} (hp : p ≠ 0) : n < (floorRoot p n + 1) ^ p := by
  by_contra h
  rw [not_lt] at h
  have h1 : floorRoot p n + 1 ≤ n := le_trans (Nat.le_self_pow hp _) h
  exact Nat.findGreatest_is_greatest (P := fun s => s ^ p ≤ n) (Nat.lt_succ_self _) h1 h

theorem floorRoot_pow {p : Nat} (hp : p ≠ 0) (r : Nat) : floorRoot p (r ^ p) = r := by
  have h1 := floorRoot_le (n := r ^ p) hp
  have h2 := lt_floorRoot (n := r ^ p) hp
  have h3 := (Nat.pow_le_pow_iff_left hp).1 h1
  have h4 := (Nat.pow_lt_pow_iff_left hp).1 h2
  omega

theorem nearestRoot_pow {p : Nat} (hp : p ≠ 0) (r : Nat) : nearestRoot p (r ^ p) = r := by
  simp only [nearestRoot, floorRoot_pow hp]
  rw [if_neg]
  rw [not_lt, ← mul_pow]
  exact Nat.pow_le_pow_left (by omega) p

theorem quadDimOf_dim (r : Nat) : quadDimOf (Kind.quad.dim r) = r := by
  have h : 2 * (r * (r + 1) / 2) = r * (r + 1) :=
    Nat.mul_div_cancel' (Nat.even_mul_succ_self r).two_dvd
  have h2 : 1 + 8 * Kind.quad.dim r = (2 * r + 1) * (2 * r + 1) := by
    simp only [Kind.dim]
    have : 1 + 8 * (r * (r + 1) / 2) = 1 + 4 * (2 * (r * (r + 1) / 2)) := by ring
    rw [this, h]; ring
  rw [quadDimOf, h2, Nat.sqrt_eq]
  omega

/-! ### rounding -/

theorem roundEven_near (x : ℚ) (r : ℤ) (h : |x - r| < 1 / 2) : roundEven x = r := by
  rw [abs_lt] at h
  obtain ⟨h1, h2⟩ := h
  by_cases hx : (r : ℚ) ≤ x
  · have hf : ⌊x⌋ = r := by
      rw [Int.floor_eq_iff]
      exact ⟨hx, by linarith⟩
    simp only [roundEven, hf]
    rw [if_pos h2]
  · rw [not_le] at hx
    have hf : ⌊x⌋ = r - 1 := by
      rw [Int.floor_eq_iff]
      push_cast
      exact ⟨by linarith, by linarith⟩
    simp only [roundEven, hf]
    push_cast
    rw [if_neg (by linarith), if_pos (by linarith)]
    ring

/-! ### the loop -/

theorem newtonLoop_some {tol : ℚ} {step : ℚ → ℚ} {n : Nat} {x y : ℚ} (h : newtonLoop tol step n x = some y) :
    ∃ k < n, y = step^[k + 1] x ∧ |step^[k] x - y| < tol := by
  induction n generalizing x with
  | zero => cases h
  | succ n ih =>
    rw [newtonLoop] at h
    split at h
    · rename_i hlt
      obtain rfl := Option.some.inj h
      exact ⟨0, by omega, rfl, hlt⟩
    · obtain ⟨k, h1, h2, h3⟩ := ih h
      exact ⟨k + 1, by omega, h2, h3⟩

theorem newtonLoop_none {tol : ℚ} {step : ℚ → ℚ} {n : Nat} {x : ℚ} :
    newtonLoop tol step n x = none ↔ ∀ k < n, tol ≤ |step^[k] x - step^[k + 1] x| := by
  induction n generalizing x with
  | zero => simp [newtonLoop]
  | succ n ih =>
    rw [newtonLoop]
    split
    · rename_i hlt
      simp only [reduceCtorEq, false_iff]
      intro h
      exact absurd (h 0 (by omega)) (not_le.2 hlt)
    · rename_i hlt
      rw [ih]
      constructor
      · intro h k hk
        cases k with
        | zero => exact not_lt.1 hlt
        | succ k => exact h k (by omega)
      · intro h k hk
        exact h (k + 1) (by omega)

/-- If the iterates stay above `r` once the first step is done, and a step shorter than 1/4 ends within 1/2 of `r`,
the loop ends with a number that is rounded to `r`, or not at all. -/
theorem newtonLoop_sound {step : ℚ → ℚ} {r : Nat} {n : Nat} {x y : ℚ} (hx : x ≤ r) (hfirst : (r : ℚ) ≤ step x)
    (hstay : ∀ x, (r : ℚ) ≤ x → (r : ℚ) ≤ step x)
    (hnear : ∀ x, (r : ℚ) ≤ x → x - step x < 1 / 4 → step x - r < 1 / 2)
    (h : newtonLoop (1 / 4) step n x = some y) : roundEven y = r := by
  obtain ⟨k, -, rfl, h3⟩ := newtonLoop_some h
  have habove : ∀ k, (r : ℚ) ≤ step^[k + 1] x := by
    intro k
    induction k with
    | zero => exact hfirst
    | succ k ih => rw [Function.iterate_succ_apply']; exact hstay _ ih
  apply roundEven_near
  have h0 : ((r : ℤ) : ℚ) = r := by simp
  rw [h0]
  rw [abs_lt] at h3 ⊢
  refine ⟨by linarith [habove k], ?_⟩
  cases k with
  | zero =>
    simp only [Function.iterate_zero, id, Function.iterate_succ, Function.comp] at h3 ⊢
    linarith
  | succ k =>
    have := habove k
    rw [Function.iterate_succ_apply' _ (k + 1)] at h3 ⊢
    exact hnear _ this h3.2

/-! ### the cubic equation -/

theorem six_dim (r : Nat) : 6 * Kind.cubic.dim r = r * (r + 1) * (r + 2) := by
  have h : r * (r + 1) * (r + 2) = 6 * (r + 2).choose 3 := by
    have := Nat.add_one_mul_choose_eq (r + 1) 2
    have h2 := Nat.add_one_mul_choose_eq r 1
    rw [Nat.choose_one_right] at h2
    linarith [show (r + 1 + 1) * (r + 1).choose 2 * 2 = (r + 2) * ((r + 1) * r) by rw [mul_assoc, ← h2]]
  simp only [Kind.dim]
  omega

theorem twentyfour_dim (r : Nat) : 24 * Kind.quartic.dim r = r * (r + 1) * (r + 2) * (r + 3) := by
  have h1 := six_dim r
  have h3 : r * (r + 1) * (r + 2) = 6 * (r + 2).choose 3 := by
    have := Nat.add_one_mul_choose_eq (r + 1) 2
    have h2 := Nat.add_one_mul_choose_eq r 1
    rw [Nat.choose_one_right] at h2
    linarith [show (r + 1 + 1) * (r + 1).choose 2 * 2 = (r + 2) * ((r + 1) * r) by rw [mul_assoc, ← h2]]
  have h : r * (r + 1) * (r + 2) * (r + 3) = 24 * (r + 3).choose 4 := by
    have := Nat.add_one_mul_choose_eq (r + 2) 3
    rw [h3]
    linarith
  simp only [Kind.dim]
  omega

theorem cubic_six (r : Nat) : 6 * (Kind.cubic.dim r : ℚ) = r * (r + 1) * (r + 2) := by
  exact_mod_cast six_dim r

theorem quartic_24 (r : Nat) : 24 * (Kind.quartic.dim r : ℚ) = r * (r + 1) * (r + 2) * (r + 3) := by
  exact_mod_cast twentyfour_dim r

theorem cubicStep_sub (r : Nat) (x : ℚ) (hx : 0 ≤ x) :
    cubicStep (Kind.cubic.dim r) x - r = (x - r) ^ 2 * (2 * x + r + 3) / (3 * x ^ 2 + 6 * x + 2) := by
  have : 3 * x ^ 2 + 6 * x + 2 ≠ 0 := by positivity
  rw [cubicStep, cubic_six]
  field_simp
  ring

theorem sub_cubicStep (r : Nat) (x : ℚ) (hx : 0 ≤ x) :
    x - cubicStep (Kind.cubic.dim r) x =
      (x - r) * (x ^ 2 + x * r + r ^ 2 + 3 * x + 3 * r + 2) / (3 * x ^ 2 + 6 * x + 2) := by
  have : 3 * x ^ 2 + 6 * x + 2 ≠ 0 := by positivity
  rw [cubicStep, cubic_six]
  field_simp
  ring

theorem cubicStep_above (r : Nat) (x : ℚ) (hx : 0 ≤ x) : (r : ℚ) ≤ cubicStep (Kind.cubic.dim r) x := by
  have h := cubicStep_sub r x hx
  have : 0 ≤ (x - r) ^ 2 * (2 * x + r + 3) / (3 * x ^ 2 + 6 * x + 2) := by positivity
  linarith

theorem cubicStep_near (r : Nat) (x : ℚ) (hx : (r : ℚ) ≤ x)
    (h : x - cubicStep (Kind.cubic.dim r) x < 1 / 4) : cubicStep (Kind.cubic.dim r) x - r < 1 / 2 := by
  have hr : (0 : ℚ) ≤ r := Nat.cast_nonneg r
  have hx0 : 0 ≤ x := hr.trans hx
  have hD : 0 < 3 * x ^ 2 + 6 * x + 2 := by positivity
  rw [sub_cubicStep r x hx0, div_lt_iff₀ hD] at h
  rw [cubicStep_sub r x hx0, div_lt_iff₀ hD]
  obtain ⟨e, rfl⟩ : ∃ e, x = r + e := ⟨x - r, by ring⟩
  generalize (r : ℚ) = s at *
  have he : 0 ≤ e := by linarith
  simp only [add_sub_cancel_left] at *
  have he1 : e < 3 / 4 := by
    by_contra hc
    rw [not_lt] at hc
    have : 0 ≤ (e - 3 / 4) * ((s + e) ^ 2 + (s + e) * s + s ^ 2 + 3 * (s + e) + 3 * s + 2) :=
      mul_nonneg (by linarith) (by positivity)
    nlinarith [mul_nonneg hr he, sq_nonneg s, sq_nonneg e]
  have h1 : e ^ 2 ≤ 3 / 4 * e := by nlinarith
  have h2 : e ^ 2 * (2 * (s + e) + s + 3) ≤ 3 / 4 * e * (2 * (s + e) + s + 3) :=
    mul_le_mul_of_nonneg_right h1 (by positivity)
  nlinarith [mul_nonneg hr he, sq_nonneg s, sq_nonneg e]

theorem cubicStep_le (r : Nat) (x : ℚ) (hx : (r : ℚ) ≤ x) : cubicStep (Kind.cubic.dim r) x ≤ x := by
  have hr : (0 : ℚ) ≤ r := Nat.cast_nonneg r
  have hx0 : 0 ≤ x := hr.trans hx
  have h := sub_cubicStep r x hx0
  have : 0 ≤ (x - r) * (x ^ 2 + x * r + r ^ 2 + 3 * x + 3 * r + 2) / (3 * x ^ 2 + 6 * x + 2) :=
    div_nonneg (mul_nonneg (by linarith) (by positivity)) (by positivity)
  linarith

/-- The relative error is squared. -/
theorem cubicStep_chain (r : Nat) (x d d' : ℚ) (hx : (r : ℚ) ≤ x) (hd : 0 ≤ d)
    (hxd : x ≤ (1 + d) * r) (hdd : d ^ 2 ≤ d' * (1 + d)) :
    cubicStep (Kind.cubic.dim r) x ≤ (1 + d') * r := by
  have hr : (0 : ℚ) ≤ r := Nat.cast_nonneg r
  have hx0 : 0 ≤ x := hr.trans hx
  have hD : 0 < 3 * x ^ 2 + 6 * x + 2 := by positivity
  have h := cubicStep_sub r x hx0
  have hd' : 0 ≤ d' := by
    by_contra hc
    nlinarith [sq_nonneg d]
  suffices (x - r) ^ 2 * (2 * x + r + 3) / (3 * x ^ 2 + 6 * x + 2) ≤ d' * r by linarith
  rw [div_le_iff₀ hD]
  obtain ⟨e, rfl⟩ : ∃ e, x = r + e := ⟨x - r, by ring⟩
  generalize (r : ℚ) = s at *
  have he : 0 ≤ e := by linarith
  have hes : e ≤ d * s := by linarith
  simp only [add_sub_cancel_left] at *
  -- e² ≤ d' s (s + e)
  have h1 : e ^ 2 ≤ d' * s * (s + e) := by
    have h2 : e ^ 2 * (1 + d) ≤ d ^ 2 * s * (s + e) := by
      have a1 : e ^ 2 ≤ (d * s) ^ 2 := by apply pow_le_pow_left₀ he hes
      have a2 : e * (e * d) ≤ d * s * (e * d) := mul_le_mul_of_nonneg_right hes (by positivity)
      nlinarith
    have h3 : d ^ 2 * (s * (s + e)) ≤ d' * (1 + d) * (s * (s + e)) :=
      mul_le_mul_of_nonneg_right hdd (by positivity)
    have h4 : (1 + d) * e ^ 2 ≤ (1 + d) * (d' * s * (s + e)) := by nlinarith
    exact le_of_mul_le_mul_left h4 (by linarith)
  have h5 : e ^ 2 * (2 * (s + e) + s + 3) ≤ d' * s * (s + e) * (2 * (s + e) + s + 3) :=
    mul_le_mul_of_nonneg_right h1 (by positivity)
  have h6 : (s + e) * (2 * (s + e) + s + 3) ≤ 3 * (s + e) ^ 2 + 6 * (s + e) + 2 := by
    nlinarith [mul_nonneg hr he, sq_nonneg e]
  have h7 := mul_le_mul_of_nonneg_left h6 (mul_nonneg hd' hr)
  linarith

theorem cubic_start_le (r : Nat) : floorRoot 3 (Kind.cubic.dim r) ≤ r := by
  have h := floorRoot_le (p := 3) (n := Kind.cubic.dim r) (by decide)
  have h6 := six_dim r
  by_contra hc
  rw [not_le] at hc
  have h1 : (r + 1) ^ 3 ≤ floorRoot 3 (Kind.cubic.dim r) ^ 3 := Nat.pow_le_pow_left hc 3
  nlinarith

theorem cubic_start (r : Nat) (hr : 1 ≤ r) :
    cubicStep (Kind.cubic.dim r) (floorRoot 3 (Kind.cubic.dim r)) ≤ 2 * r := by
  have hle := cubic_start_le r
  have h6 := six_dim r
  have h1 : 1 ≤ floorRoot 3 (Kind.cubic.dim r) := by
    have h2 := lt_floorRoot (p := 3) (n := Kind.cubic.dim r) (by decide)
    by_contra hc
    have h0 : floorRoot 3 (Kind.cubic.dim r) = 0 := by omega
    rw [h0] at h2
    have : 6 ≤ r * (r + 1) * (r + 2) := by
      have := Nat.mul_le_mul (Nat.mul_le_mul hr (Nat.succ_le_succ hr)) (show 3 ≤ r + 2 by omega)
      exact this
    omega
  have hlt := lt_floorRoot (p := 3) (n := Kind.cubic.dim r) (by decide)
  have hs := cubicStep_sub r (floorRoot 3 (Kind.cubic.dim r)) (Nat.cast_nonneg _)
  generalize floorRoot 3 (Kind.cubic.dim r) = x0 at *
  have hD : (0 : ℚ) < 3 * (x0 : ℚ) ^ 2 + 6 * x0 + 2 := by positivity
  suffices ((x0 : ℚ) - r) ^ 2 * (2 * x0 + r + 3) / (3 * (x0 : ℚ) ^ 2 + 6 * x0 + 2) ≤ r by linarith
  rw [div_le_iff₀ hD]
  have hup : r * (r + 1) * (r + 2) + 6 ≤ 6 * (x0 + 1) ^ 3 := by omega
  obtain ⟨k, rfl⟩ : ∃ k, r = x0 + k := ⟨r - x0, by omega⟩
  have hupq : ((x0 : ℚ) + k) * (x0 + k + 1) * (x0 + k + 2) + 6 ≤ 6 * (x0 + 1) ^ 3 := by
    exact_mod_cast hup
  push_cast
  have ha : (1 : ℚ) ≤ x0 := by exact_mod_cast h1
  have hk : (0 : ℚ) ≤ k := Nat.cast_nonneg k
  clear hs hD hup h6 hlt hle hr
  generalize (x0 : ℚ) = a at *
  generalize (k : ℚ) = k at *
  by_cases hc : a / 3 + 1 ≤ k
  · have h2 : (a / 3 + 1) * (6 * a ^ 2 + 12 * a + 4) ≤ k * (6 * a ^ 2 + 12 * a + 4) :=
      mul_le_mul_of_nonneg_right hc (by positivity)
    nlinarith
  · rw [not_le] at hc
    have h2 : k * (k + 3 * a + 3) ≤ (a / 3 + 1) * (10 * a / 3 + 4) :=
      mul_le_mul hc.le (by linarith) (by positivity) (by positivity)
    have h3 : (a / 3 + 1) * (10 * a / 3 + 4) ≤ 3 * a ^ 2 + 6 * a + 2 := by nlinarith
    have h4 := mul_le_mul_of_nonneg_left (h2.trans h3) hk
    nlinarith [mul_nonneg (show 0 ≤ a by linarith) (show (0 : ℚ) ≤ 3 * a ^ 2 + 6 * a + 2 by positivity)]

/-! ### the quartic equation -/

theorem quarticStep_sub (r : Nat) (x : ℚ) (hx : 0 ≤ x) :
    quarticStep (Kind.quartic.dim r) x - r =
      (x - r) ^ 2 * (3 * x ^ 2 + 2 * x * r + r ^ 2 + 12 * x + 6 * r + 11) /
        (4 * x ^ 3 + 18 * x ^ 2 + 22 * x + 6) := by
  have : 4 * x ^ 3 + 18 * x ^ 2 + 22 * x + 6 ≠ 0 := by positivity
  rw [quarticStep, quartic_24]
  field_simp
  ring

theorem sub_quarticStep (r : Nat) (x : ℚ) (hx : 0 ≤ x) :
    x - quarticStep (Kind.quartic.dim r) x =
      (x - r) * (x ^ 3 + x ^ 2 * r + x * r ^ 2 + r ^ 3 + 6 * (x ^ 2 + x * r + r ^ 2) + 11 * (x + r) + 6) /
        (4 * x ^ 3 + 18 * x ^ 2 + 22 * x + 6) := by
  have : 4 * x ^ 3 + 18 * x ^ 2 + 22 * x + 6 ≠ 0 := by positivity
  rw [quarticStep, quartic_24]
  field_simp
  ring

theorem quarticStep_above (r : Nat) (x : ℚ) (hx : 0 ≤ x) : (r : ℚ) ≤ quarticStep (Kind.quartic.dim r) x := by
  have h := quarticStep_sub r x hx
  have : 0 ≤ (x - r) ^ 2 * (3 * x ^ 2 + 2 * x * r + r ^ 2 + 12 * x + 6 * r + 11) /
        (4 * x ^ 3 + 18 * x ^ 2 + 22 * x + 6) := by positivity
  linarith

theorem quarticStep_near (r : Nat) (h1r : 1 ≤ r) (x : ℚ) (hx : (r : ℚ) ≤ x)
    (h : x - quarticStep (Kind.quartic.dim r) x < 1 / 4) : quarticStep (Kind.quartic.dim r) x - r < 1 / 2 := by
  have hr : (1 : ℚ) ≤ r := by exact_mod_cast h1r
  have hx0 : 0 ≤ x := by linarith
  have hD : 0 < 4 * x ^ 3 + 18 * x ^ 2 + 22 * x + 6 := by positivity
  rw [sub_quarticStep r x hx0, div_lt_iff₀ hD] at h
  rw [quarticStep_sub r x hx0, div_lt_iff₀ hD]
  obtain ⟨e, rfl⟩ : ∃ e, x = r + e := ⟨x - r, by ring⟩
  generalize (r : ℚ) = s at *
  have he : 0 ≤ e := by linarith
  have hs : 0 ≤ s := by linarith
  simp only [add_sub_cancel_left] at *
  have he1 : e < 1 := by
    by_contra hc
    rw [not_lt] at hc
    have h2 : 1 * ((s + e) ^ 3 + (s + e) ^ 2 * s + (s + e) * s ^ 2 + s ^ 3 +
        6 * ((s + e) ^ 2 + (s + e) * s + s ^ 2) + 11 * ((s + e) + s) + 6) ≤
        e * ((s + e) ^ 3 + (s + e) ^ 2 * s + (s + e) * s ^ 2 + s ^ 3 +
        6 * ((s + e) ^ 2 + (s + e) * s + s ^ 2) + 11 * ((s + e) + s) + 6) :=
      mul_le_mul_of_nonneg_right hc (by positivity)
    have h3 : 0 ≤ (s + e) ^ 2 * s + (s + e) * s ^ 2 + s ^ 3 := by positivity
    have h4 : 0 ≤ 6 * ((s + e) * s + s ^ 2) + 11 * s := by positivity
    nlinarith [sq_nonneg (s + e)]
  have e2 : e ^ 2 ≤ e := by nlinarith
  have e3 : e ^ 3 ≤ e ^ 2 := by nlinarith [sq_nonneg e]
  have e4 : e ^ 4 ≤ e ^ 3 := by nlinarith [pow_nonneg he 3]
  have s2 := mul_nonneg hs hs
  have m1 : s ^ 2 * e ^ 2 ≤ s ^ 2 * e := mul_le_mul_of_nonneg_left e2 (sq_nonneg s)
  have m2 : s * e ^ 3 ≤ s * e ^ 2 := mul_le_mul_of_nonneg_left e3 hs
  have m3 : s * e ^ 2 ≤ s * e := mul_le_mul_of_nonneg_left e2 hs
  have m4 : s * e ≤ s := by nlinarith
  have p3 : 0 ≤ s ^ 3 := by positivity
  have p4 : 0 ≤ s ^ 2 := by positivity
  nlinarith [pow_nonneg he 2, pow_nonneg he 3]

theorem quarticStep_le (r : Nat) (x : ℚ) (hx : (r : ℚ) ≤ x) : quarticStep (Kind.quartic.dim r) x ≤ x := by
  have hr : (0 : ℚ) ≤ r := Nat.cast_nonneg r
  have hx0 : 0 ≤ x := hr.trans hx
  have h := sub_quarticStep r x hx0
  have : 0 ≤ (x - r) * (x ^ 3 + x ^ 2 * r + x * r ^ 2 + r ^ 3 + 6 * (x ^ 2 + x * r + r ^ 2) + 11 * (x + r) + 6) /
        (4 * x ^ 3 + 18 * x ^ 2 + 22 * x + 6) :=
    div_nonneg (mul_nonneg (by linarith) (by positivity)) (by positivity)
  linarith

/-- The step is at most the one for the pure power. -/
theorem quarticStep_chain (r : Nat) (x c c' : ℚ) (h1r : 1 ≤ r) (hx : (r : ℚ) ≤ x)
    (hxc : x ≤ c * r) (hcc : 3 * c ^ 4 + 1 ≤ 4 * c' * c ^ 3) :
    quarticStep (Kind.quartic.dim r) x ≤ c' * r := by
  have hr : (0 : ℚ) < r := by exact_mod_cast h1r
  have hx0 : 0 < x := by linarith
  have hc1 : 1 ≤ c := by
    by_contra hn
    have : c * r < 1 * r := mul_lt_mul_of_pos_right (not_le.1 hn) hr
    linarith
  have hD : 0 < 4 * x ^ 3 + 18 * x ^ 2 + 22 * x + 6 := by positivity
  have h := quarticStep_sub r x hx0.le
  -- first bound: the pure power
  have hpure : (x - r) ^ 2 * (3 * x ^ 2 + 2 * x * r + r ^ 2 + 12 * x + 6 * r + 11) /
        (4 * x ^ 3 + 18 * x ^ 2 + 22 * x + 6) ≤ (x - r) ^ 2 * (3 * x ^ 2 + 2 * x * r + r ^ 2) / (4 * x ^ 3) := by
    rw [div_le_div_iff₀ hD (by positivity), mul_assoc ((x - r) ^ 2), mul_assoc ((x - r) ^ 2)]
    apply mul_le_mul_of_nonneg_left _ (sq_nonneg _)
    have hrx : (r : ℚ) * x ^ 3 ≤ x * x ^ 3 := mul_le_mul_of_nonneg_right hx (by positivity)
    have hp : 0 ≤ (r : ℚ) * x ^ 2 + r ^ 2 * x ^ 2 + r * x + r ^ 2 * x + r ^ 2 + x ^ 2 + r * x ^ 3:= by positivity
    nlinarith [mul_pos hr hx0, pow_pos hx0 2, pow_pos hx0 3, mul_pos hr (pow_pos hx0 2), mul_pos (pow_pos hr 2) hx0,
      mul_pos (pow_pos hr 2) (pow_pos hx0 2), pow_pos hr 2]
  have heq : (x - r) ^ 2 * (3 * x ^ 2 + 2 * x * r + r ^ 2) / (4 * x ^ 3) = (3 * x ^ 4 + r ^ 4) / (4 * x ^ 3) - r := by
    field_simp
    ring
  suffices hfin : (3 * x ^ 4 + (r : ℚ) ^ 4) / (4 * x ^ 3) ≤ c' * r by linarith
  rw [div_le_iff₀ (by positivity)]
  generalize (r : ℚ) = s at *
  -- monotonicity
  have hX : 0 < c * s := by linarith
  have hmono : (3 * x ^ 4 + s ^ 4) * (c * s) ^ 3 ≤ (3 * (c * s) ^ 4 + s ^ 4) * x ^ 3 := by
    generalize c * s = X at *
    have h1 : s ^ 4 * (X ^ 2 + X * x + x ^ 2) ≤ 3 * (X ^ 3 * x ^ 3) := by
      have a1 : s ^ 4 ≤ x ^ 4 := pow_le_pow_left₀ hr.le hx 4
      have a2 : X * x ≤ X * X := mul_le_mul_of_nonneg_left hxc hX.le
      have a3 : x ^ 2 ≤ X ^ 2 := pow_le_pow_left₀ hx0.le hxc 2
      have a4 : s ^ 4 * (X ^ 2 + X * x + x ^ 2) ≤ x ^ 4 * (3 * X ^ 2) :=
        mul_le_mul a1 (by nlinarith) (by positivity) (by positivity)
      have a5 : x * (3 * X ^ 2 * x ^ 3) ≤ X * (3 * X ^ 2 * x ^ 3) := mul_le_mul_of_nonneg_right hxc (by positivity)
      nlinarith
    have h2 := mul_nonneg (show 0 ≤ X - x by linarith) (show 0 ≤ 3 * (X ^ 3 * x ^ 3) - s ^ 4 * (X ^ 2 + X * x + x ^ 2) by linarith)
    nlinarith
  have h3 : (3 * (c * s) ^ 4 + s ^ 4) * x ^ 3 ≤ (4 * c' * c ^ 3 * s ^ 4) * x ^ 3 := by
    apply mul_le_mul_of_nonneg_right _ (by positivity)
    have := mul_le_mul_of_nonneg_right hcc (show 0 ≤ s ^ 4 by positivity)
    nlinarith
  have h4 : (c * s) ^ 3 * (3 * x ^ 4 + s ^ 4) ≤ (c * s) ^ 3 * (c' * s * (4 * x ^ 3)) := by
    calc (c * s) ^ 3 * (3 * x ^ 4 + s ^ 4) = (3 * x ^ 4 + s ^ 4) * (c * s) ^ 3 := by ring
      _ ≤ _ := hmono
      _ ≤ _ := h3
      _ = _ := by ring
  exact le_of_mul_le_mul_left h4 (by positivity)

theorem quartic_start_le (r : Nat) : floorRoot 4 (Kind.quartic.dim r) ≤ r := by
  have h := floorRoot_le (p := 4) (n := Kind.quartic.dim r) (by decide)
  have h6 := twentyfour_dim r
  by_contra hc
  rw [not_le] at hc
  have h1 : (r + 1) ^ 4 ≤ floorRoot 4 (Kind.quartic.dim r) ^ 4 := Nat.pow_le_pow_left hc 4
  nlinarith [Nat.zero_le (r ^ 4), Nat.zero_le (r ^ 3), Nat.zero_le (r ^ 2)]

theorem quartic_start (r : Nat) (hr : 1 ≤ r) :
    quarticStep (Kind.quartic.dim r) (floorRoot 4 (Kind.quartic.dim r)) ≤ 16 / 5 * r := by
  by_cases hsmall : r ≤ 20
  · interval_cases r <;> decide +kernel
  rw [not_le] at hsmall
  have hle := quartic_start_le r
  have h6 := twentyfour_dim r
  have hlt := lt_floorRoot (p := 4) (n := Kind.quartic.dim r) (by decide)
  have hs := quarticStep_sub r (floorRoot 4 (Kind.quartic.dim r)) (Nat.cast_nonneg _)
  have h1 : 9 ≤ floorRoot 4 (Kind.quartic.dim r) := by
    by_contra hc
    have h2 : (floorRoot 4 (Kind.quartic.dim r) + 1) ^ 4 ≤ 9 ^ 4 := Nat.pow_le_pow_left (by omega) 4
    have : 21 * 22 * 23 * 24 ≤ r * (r + 1) * (r + 2) * (r + 3) :=
      Nat.mul_le_mul (Nat.mul_le_mul (Nat.mul_le_mul (by omega) (by omega)) (by omega)) (by omega)
    omega
  generalize floorRoot 4 (Kind.quartic.dim r) = x0 at *
  have hD : (0 : ℚ) < 4 * (x0 : ℚ) ^ 3 + 18 * (x0 : ℚ) ^ 2 + 22 * x0 + 6 := by positivity
  suffices ((x0 : ℚ) - r) ^ 2 * (3 * (x0 : ℚ) ^ 2 + 2 * x0 * r + r ^ 2 + 12 * x0 + 6 * r + 11) /
      (4 * (x0 : ℚ) ^ 3 + 18 * (x0 : ℚ) ^ 2 + 22 * x0 + 6) ≤ 11 / 5 * r by linarith
  rw [div_le_iff₀ hD]
  have hup : r * (r + 1) * (r + 2) * (r + 3) + 24 ≤ 24 * (x0 + 1) ^ 4 := by omega
  have hupq : (r : ℚ) * (r + 1) * (r + 2) * (r + 3) + 24 ≤ 24 * (x0 + 1) ^ 4 := by exact_mod_cast hup
  have hx9 : (9 : ℚ) ≤ x0 := by exact_mod_cast h1
  have hleq : (x0 : ℚ) ≤ r := by exact_mod_cast hle
  clear hs hD hup h6 hlt hle hr h1 hsmall
  generalize (x0 : ℚ) = x at *
  obtain ⟨y, rfl⟩ : ∃ y : ℚ, x = y - 1 := ⟨x + 1, by ring⟩
  generalize (r : ℚ) = r at *
  have hy10 : 10 ≤ y := by linarith
  have hr0 : 0 ≤ r := by linarith
  -- in this form
  suffices hmain : 3 * y ^ 4 - 7 * y ^ 2 + 2 * y + 2 + r * (r + 1) * (r + 2) * (r + 3) ≤
      16 / 5 * r * (4 * y ^ 3 + 6 * y ^ 2 - 2 * y - 2) by nlinarith
  have y2 : 10 * y ≤ y ^ 2 := by nlinarith
  have y3 : 10 * y ^ 2 ≤ y ^ 3 := by nlinarith
  have y4 : 10 * y ^ 3 ≤ y ^ 4 := by nlinarith [pow_nonneg (show 0 ≤ y by linarith) 3]
  by_cases hA : 211 / 100 * y ≤ r
  · have h1 : 211 / 100 * y * (16 / 5 * (4 * y ^ 3 + 6 * y ^ 2 - 2 * y - 2)) ≤
        r * (16 / 5 * (4 * y ^ 3 + 6 * y ^ 2 - 2 * y - 2)) :=
      mul_le_mul_of_nonneg_right hA (by nlinarith)
    nlinarith
  · rw [not_le] at hA
    -- the factor of r
    by_cases hB : 3 / 2 * y ≤ r
    · have b2 : r ^ 2 ≤ (211 / 100 * y) ^ 2 := pow_le_pow_left₀ hr0 hA.le 2
      have b3 : r ^ 3 ≤ (211 / 100 * y) ^ 3 := pow_le_pow_left₀ hr0 hA.le 3
      have hbr : (r + 1) * (r + 2) * (r + 3) - 16 / 5 * (4 * y ^ 3 + 6 * y ^ 2 - 2 * y - 2) ≤ - (23 / 10) * y ^ 3 := by
        nlinarith
      have := mul_le_mul_of_nonneg_left hbr hr0
      have h3 : 3 / 2 * y * (23 / 10 * y ^ 3) ≤ r * (23 / 10 * y ^ 3) :=
        mul_le_mul_of_nonneg_right hB (by positivity)
      nlinarith
    · rw [not_le] at hB
      have b2 : r ^ 2 ≤ (3 / 2 * y) ^ 2 := pow_le_pow_left₀ hr0 hB.le 2
      have b3 : r ^ 3 ≤ (3 / 2 * y) ^ 3 := pow_le_pow_left₀ hr0 hB.le 3
      have hbr : (r + 1) * (r + 2) * (r + 3) - 16 / 5 * (4 * y ^ 3 + 6 * y ^ 2 - 2 * y - 2) ≤ - 9 * y ^ 3 := by
        nlinarith
      have := mul_le_mul_of_nonneg_left hbr hr0
      have h3 : 9 / 10 * y * (9 * y ^ 3) ≤ r * (9 * y ^ 3) :=
        mul_le_mul_of_nonneg_right (by linarith) (by positivity)
      nlinarith

end Opinf
