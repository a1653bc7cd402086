import Verif.Lemmas.Lift
import Mathlib.Analysis.SpecialFunctions.Pow.Deriv

/-!
# C41: lifting maps are invertible and differentiate correctly

The specification is about entries: block `i` of the lifted states holds the powers with the `i`-th order, and
the derivative of every lifted entry along a differentiable curve of states is the calculus derivative
(`HasDerivAt`).
-/

namespace Opinf

open List

variable {K : Type}

/-- The real power function of numpy: finite except for negative powers of zero and fractional powers of
negative numbers. -/
noncomputable def realPow : PowFn ℝ := fun q p =>
  if (q = 0 ∧ p < 0) ∨ (q < 0 ∧ p.den ≠ 1) then none else some (q ^ (p : ℝ))

/-- What is used of a power function over an arbitrary field: the first power is the identity. -/
def PowFn.FirstPower (pw : PowFn K) : Prop := ∀ q, pw q 1 = some q

theorem intPow_firstPower [Field K] [DecidableEq K] : PowFn.FirstPower (intPow (K := K)) := by
  intro q
  simp [intPow]

theorem realPow_firstPower : realPow.FirstPower := by
  intro q
  have : ¬ ((q = 0 ∧ (1 : ℚ) < 0) ∨ (q < 0 ∧ (1 : ℚ).den ≠ 1)) := by
    rintro (⟨_, h⟩ | ⟨_, h⟩)
    · exact absurd h (by norm_num)
    · exact h rfl
  simp only [realPow, this, if_false, Rat.cast_one, Real.rpow_one]

/-! ### The quadratic lifting map -/

/-- C41: `unlift(lift(states)) = states` for the quadratic lifting map. -/
theorem C41_quadratic_unlift [Monoid K] (Q : List (List K)) : quadUnlift (quadLift Q) = .ok Q := by
  have := splitRows_flatten Q.length [Q, Q.map (map (· ^ 2))] (by simp) (by simp)
  simp only [flatten_cons, flatten_nil, append_nil, length_cons, length_nil, Nat.zero_add, Nat.reduceAdd] at this
  simp only [quadUnlift, quadLift, this, Except.map]
  rfl

/-- C41: entries of the lifted states of the quadratic lifting map. -/
theorem C41_quadratic_entries [Semiring K] (Q : List (List K)) (i j : Nat) (hi : i < Q.length) :
    (quadLift Q).length = 2 * Q.length ∧ rowEntry (quadLift Q) i j = rowEntry Q i j ∧
      rowEntry (quadLift Q) (Q.length + i) j = rowEntry Q i j ^ 2 := by
  refine ⟨by simp [quadLift]; omega, ?_, ?_⟩
  · simp [rowEntry, quadLift, getD_eq_getElem?_getD, getElem?_append, hi]
  · simp only [rowEntry, quadLift, getD_eq_getElem?_getD, getElem?_append, length_map, Nat.add_sub_cancel_left,
      Nat.not_lt.2 (Nat.le_add_right _ _), if_false, getElem?_map, getElem?_eq_getElem hi, Option.map_some,
      Option.getD_some]
    by_cases hj : j < (Q[i]).length
    · simp [hj]
    · simp [hj]

/-- C41: `lift_ddts` of the quadratic lifting map is the derivative of the lifted states along any curve of
states with the given derivative, and it is refused only if the shapes differ. -/
theorem C41_quadratic_ddts (Q : ℝ → List (List ℝ)) (D : List (List ℝ)) (t : ℝ) (shape : List Nat)
    (hQ : ∀ s, (Q s).map length = shape) (hD : D.map length = shape)
    (hd : ∀ i j, HasDerivAt (fun s => rowEntry (Q s) i j) (rowEntry D i j) t) :
    ∃ E, quadLiftDdts (Q t) D = .ok E ∧ E.length = 2 * shape.length ∧
      ∀ i j, i < 2 * shape.length → HasDerivAt (fun s => rowEntry (quadLift (Q s)) i j) (rowEntry E i j) t := by
  have hsame : sameShape ((Q t).map (map (2 * ·))) D = true := by
    simp only [sameShape, beq_iff_eq, hD, ← hQ t, map_map]
    apply map_congr_left
    intro r _
    simp
  have hm : mulAll ((Q t).map (map (2 * ·))) D =
      .ok (zipWith (zipWith (· * ·)) ((Q t).map (map (2 * ·))) D) := by
    simp only [mulAll, hsame, if_true]
  obtain ⟨_, h2, h3⟩ := mulAll_ok hm
  generalize zipWith (zipWith (· * ·)) ((Q t).map (map (2 * ·))) D = P at hm h2 h3
  have lQ : ∀ s, (Q s).length = shape.length := fun s => by simpa using congrArg length (hQ s)
  have lD : D.length = shape.length := by simpa using congrArg length hD
  have lP : P.length = shape.length := by
    have := congrArg length h2
    simpa [lQ t] using this
  refine ⟨D ++ P, by simp only [quadLiftDdts, hm, Except.map], by simp [lD, lP]; omega, ?_⟩
  intro i j hi
  by_cases hlt : i < shape.length
  · have e1 : (fun s => rowEntry (quadLift (Q s)) i j) = fun s => rowEntry (Q s) i j := by
      funext s
      exact (C41_quadratic_entries (Q s) i j (by rw [lQ]; exact hlt)).2.1
    have e2 : rowEntry (D ++ P) i j = rowEntry D i j := by
      simp [rowEntry, getD_eq_getElem?_getD, getElem?_append, lD, hlt]
    rw [e1, e2]
    exact hd i j
  · obtain ⟨k, rfl⟩ : ∃ k, i = shape.length + k := ⟨i - shape.length, by omega⟩
    have hk : k < shape.length := by omega
    have e1 : (fun s => rowEntry (quadLift (Q s)) (shape.length + k) j) = fun s => rowEntry (Q s) k j ^ 2 := by
      funext s
      have := (C41_quadratic_entries (Q s) k j (by rw [lQ]; exact hk)).2.2
      rwa [lQ] at this
    have e2 : rowEntry (D ++ P) (shape.length + k) j = rowEntry P k j := by
      simp [rowEntry, getD_eq_getElem?_getD, getElem?_append, lD]
    have e3 : rowEntry ((Q t).map (map (2 * ·))) k j = 2 * rowEntry (Q t) k j := by
      simp only [rowEntry, getD_eq_getElem?_getD, getElem?_map,
        getElem?_eq_getElem (show k < (Q t).length by rw [lQ]; exact hk), Option.map_some, Option.getD_some]
      by_cases hj : j < ((Q t)[k]'(by rw [lQ]; exact hk)).length
      · simp [hj]
      · simp [hj]
    rw [e1, e2, h3, e3]
    have := (hd k j).fun_pow 2
    simpa using this

/-- C41: the quadratic lifting map is the polynomial one with the orders `(1, 2)`. -/
theorem C41_quadratic_is_polynomial [Field K] (pw : PowFn K) (h1 : pw.FirstPower)
    (h0 : ∀ q, pw q 0 = some 1) (h2 : ∀ q, pw q 2 = some (q ^ 2)) (Q D L : List (List K)) :
    polyLift pw [1, 2] Q = .ok (quadLift Q) ∧ polyUnlift pw [1, 2] L = quadUnlift L ∧
      (sameShape Q D → polyLiftDdts pw [1, 2] Q D = quadLiftDdts Q D) := by
  have e1 : powAll pw 1 Q = .ok Q := by
    rw [powAll_of (g := fun q => q) fun _ _ q _ => h1 q]
    simp
  have e2 : powAll pw 2 Q = .ok (Q.map (map (· ^ 2))) := powAll_of fun _ _ q _ => h2 q
  refine ⟨?_, ?_, ?_⟩
  · simp only [polyLift, mapM_cons, mapM_nil, e1, e2, bind, Except.bind, pure, Except.pure, concatRows, isEmpty_cons,
      Bool.false_eq_true, if_false, quadLift, flatten_cons, flatten_nil, append_nil]
  · simp only [polyUnlift, quadUnlift, length_cons, length_nil, Nat.zero_add, Nat.reduceAdd, bind, Except.bind,
      mem_cons, true_or, if_true, idxOf_cons_self]
    cases splitRows L 2 <;> rfl
  · intro hs
    have f1 : polyDdtsBlock pw 1 Q D = .ok D := by
      have h0' : powAll pw (1 - 1) Q = .ok (Q.map (map fun _ => 1)) := by
        rw [sub_self]
        exact powAll_of fun _ _ q _ => h0 q
      have hs' : sameShape ((Q.map (map fun _ => (1 : K))).map (map (((1 : ℚ) : K) * ·))) D = true := by
        simpa [sameShape, Function.comp_def] using hs
      simp only [polyDdtsBlock, h0', bind, Except.bind, mulAll, hs', if_true, Except.ok.injEq]
      have hs'' : Q.map length = D.map length := by simpa [sameShape] using hs
      clear hs hs' h0' e1 e2
      induction Q generalizing D with
      | nil => cases D with
        | nil => rfl
        | cons d D => simp at hs''
      | cons q Q ih =>
        cases D with
        | nil => simp at hs''
        | cons d D =>
          simp only [map_cons, cons.injEq] at hs''
          simp only [map_cons, zipWith_cons_cons, ih D hs''.2, cons.injEq, and_true]
          have hl := hs''.1
          clear hs'' ih
          induction q generalizing d with
          | nil => cases d with
            | nil => rfl
            | cons y d => simp at hl
          | cons x q ih =>
            cases d with
            | nil => simp at hl
            | cons y d =>
              have := ih d (by simpa using hl)
              simp only [map_cons, zipWith_cons_cons, this]
              simp
    have f2 : polyDdtsBlock pw 2 Q D = mulAll (Q.map (map (2 * ·))) D := by
      have h0' : powAll pw (2 - 1) Q = .ok Q := by
        rw [show (2 : ℚ) - 1 = 1 by norm_num, e1]
      simp only [polyDdtsBlock, h0', bind, Except.bind, Rat.cast_ofNat]
    simp only [polyLiftDdts, mapM_cons, mapM_nil, f1, f2, bind, Except.bind, pure, Except.pure, quadLiftDdts]
    cases mulAll (Q.map (map (2 * ·))) D with
    | error e => rfl
    | ok P => simp [Except.map, concatRows]

/-! ### The polynomial lifting map -/

/-- C41: a polynomial lifting with at least one order stacks the powers of the states. -/
theorem C41_polynomial_entries [Zero K] (pw : PowFn K) (orders : List ℚ) (Q L : List (List K))
    (h : polyLift pw orders Q = .ok L) :
    orders ≠ [] ∧ L.length = orders.length * Q.length ∧
      ∀ m i j, m < orders.length → i < Q.length → j < (Q.getD i []).length →
        pw (rowEntry Q i j) (orders.getD m 0) = some (rowEntry L (m * Q.length + i) j) := by
  obtain ⟨bs, rfl, hl, hne, hb, hp⟩ := polyLift_ok h
  refine ⟨by rintro rfl; simp at hl; exact hne hl, by rw [length_flatten_const _ bs hb, hl], ?_⟩
  intro m i j hm hi hj
  have := (powAll_ok (hp m hm)).2 i j hi hj
  rw [this, rowEntry, rowEntry, getD_flatten_blocks _ bs hb m i [] (by rw [hl]; exact hm) hi]

/-- C41: when the lifting gives finite numbers. For integer orders this is the case for all states if no
order is negative, and for states without zeros otherwise. -/
theorem C41_polynomial_finite (pw : PowFn K) (orders : List ℚ) (Q : List (List K)) (hne : orders ≠ []) :
    (∃ L, polyLift pw orders Q = .ok L) ↔ ∀ p ∈ orders, ∀ row ∈ Q, ∀ q ∈ row, (pw q p).isSome := by
  simp only [← powAll_exists]
  rw [← mapM_exists_ok]
  simp only [polyLift, bind, Except.bind]
  cases hb : orders.mapM fun p => powAll pw p Q with
  | error e => simp
  | ok bs =>
    have : bs ≠ [] := by
      rintro rfl
      have := mapM_ok_length hb
      simp at this
      exact hne (length_eq_zero_iff.1 this.symm)
    simp [concatRows, this]

/-- C41: `unlift(lift(states)) = states` for every polynomial lifting map whose orders contain 1. -/
theorem C41_polynomial_unlift (pw : PowFn K) (h1 : pw.FirstPower) (orders : List ℚ) (ho : (1 : ℚ) ∈ orders)
    (Q L : List (List K)) (h : polyLift pw orders Q = .ok L) : polyUnlift pw orders L = .ok Q := by
  obtain ⟨bs, rfl, hl, hne, hb, hp⟩ := polyLift_ok h
  have hs := splitRows_flatten _ bs hb hne
  rw [hl] at hs
  have hi : orders.idxOf 1 < orders.length := idxOf_lt_length_iff.2 ho
  have hq := hp _ hi
  rw [getD_eq_getElem?_getD, getElem?_eq_getElem hi, Option.getD_some, getElem_idxOf] at hq
  rw [powAll_of (g := fun q => q) fun _ _ q _ => h1 q] at hq
  simp only [Except.ok.injEq] at hq
  simp only [polyUnlift, hs, bind, Except.bind, ho, if_true, ← hq]
  simp

theorem realPow_some {q b : ℝ} {p : ℚ} (h : realPow q p = some b) :
    ¬ ((q = 0 ∧ p < 0) ∨ (q < 0 ∧ p.den ≠ 1)) ∧ b = q ^ (p : ℝ) := by
  unfold realPow at h
  split at h
  · cases h
  · rename_i hc
    simp only [Option.some.injEq] at h
    exact ⟨hc, h.symm⟩

theorem realPow_of {q : ℝ} {p : ℚ} (h : ¬ ((q = 0 ∧ p < 0) ∨ (q < 0 ∧ p.den ≠ 1))) :
    realPow q p = some (q ^ (p : ℝ)) := by
  unfold realPow
  rw [if_neg h]

/-- Nonnegative numbers are recovered from their powers. -/
theorem realPow_inv_nonneg {q b : ℝ} {p : ℚ} (hp : p ≠ 0) (hq : 0 ≤ q) (h : realPow q p = some b) :
    realPow b (1 / p) = some q := by
  obtain ⟨h1, rfl⟩ := realPow_some h
  have hp' : (p : ℝ) ≠ 0 := by exact_mod_cast hp
  have hb : 0 ≤ q ^ (p : ℝ) := Real.rpow_nonneg hq _
  have hc : ¬ ((q ^ (p : ℝ) = 0 ∧ 1 / p < 0) ∨ (q ^ (p : ℝ) < 0 ∧ (1 / p).den ≠ 1)) := by
    rintro (⟨h2, h3⟩ | ⟨h2, _⟩)
    · rw [Real.rpow_eq_zero hq hp'] at h2
      exact h1 (.inl ⟨h2, by simpa using h3⟩)
    · exact absurd h2 (not_lt.2 hb)
  rw [realPow_of hc, ← Real.rpow_mul hq]
  congr 1
  rw [show (p : ℝ) * ((1 / p : ℚ) : ℝ) = 1 by push_cast; field_simp, Real.rpow_one]

/-- The absolute value of a number is recovered from its even powers. -/
theorem realPow_inv_even {q b : ℝ} {m : ℤ} (hm : m ≠ 0) (h : realPow q ((2 * m : ℤ) : ℚ) = some b) :
    realPow b (1 / ((2 * m : ℤ) : ℚ)) = some |q| := by
  apply realPow_inv_nonneg (by exact_mod_cast (by omega)) (abs_nonneg q)
  obtain ⟨h1, rfl⟩ := realPow_some h
  rw [realPow_of]
  · congr 1
    rw [Rat.cast_intCast, Real.rpow_intCast, Real.rpow_intCast, Even.zpow_abs (even_two_mul m)]
  · rintro (⟨h2, h3⟩ | ⟨h2, _⟩)
    · exact h1 (.inl ⟨abs_eq_zero.1 h2, h3⟩)
    · exact absurd h2 (not_lt.2 (abs_nonneg q))

/-- A negative number is recovered from its power only for the orders 1 and -1. -/
theorem realPow_inv_neg {q b : ℝ} {p : ℚ} (hp : p ≠ 0) (hp1 : p ≠ 1) (hp2 : p ≠ -1) (hq : q < 0)
    (h : realPow q p = some b) : realPow b (1 / p) ≠ some q := by
  obtain ⟨h1, hb⟩ := realPow_some h
  have hd : p.den = 1 := by
    by_contra hd
    exact h1 (.inr ⟨hq, hd⟩)
  obtain ⟨z, rfl⟩ : ∃ z : ℤ, p = z := ⟨p.num, (Rat.den_eq_one_iff p).1 hd |>.symm⟩
  have hz0 : z ≠ 0 := by exact_mod_cast hp
  have hz1 : z ≠ 1 := by exact_mod_cast hp1
  have hz2 : z ≠ -1 := by exact_mod_cast hp2
  rcases Int.even_or_odd z with he | ho
  · obtain ⟨m, rfl⟩ := he.two_dvd
    rw [realPow_inv_even (by rintro rfl; simp at hz0) h]
    intro heq
    simp only [Option.some.injEq] at heq
    have := abs_nonneg q
    linarith
  · rw [Rat.cast_intCast, Real.rpow_intCast] at hb
    have hneg : b < 0 := by rw [hb]; exact ho.zpow_neg hq
    have hden : (1 / (z : ℚ)).den ≠ 1 := by
      intro h1
      rw [one_div, Rat.inv_intCast_den] at h1
      rw [if_neg hz0] at h1
      omega
    unfold realPow
    rw [if_pos (.inr ⟨hneg, hden⟩)]
    simp

theorem polyUnlift_blocks {orders : List ℚ} (h1 : (1 : ℚ) ∉ orders) {p : ℚ}
    (hp : orders.find? (· ≠ 0) = some p) {Q L : List (List K)} {pw : PowFn K} (h : polyLift pw orders Q = .ok L) :
    ∃ B, powAll pw p Q = .ok B ∧ polyUnlift pw orders L = powAll pw (1 / p) B := by
  obtain ⟨bs, rfl, hl, hne, hb, hbs⟩ := polyLift_ok h
  obtain ⟨m, hm, rfl, _, hu⟩ := unliftLoop_find pw hp
  refine ⟨_, hbs m hm, ?_⟩
  have hs := splitRows_flatten _ bs hb hne
  rw [hl] at hs
  simp only [polyUnlift, hs, bind, Except.bind, h1, if_false]
  exact hu bs hl

/-- C41, exact characterisation without the order 1: with `p` the first nonzero order, the states are recovered
iff none of them is negative, or `p = -1`. -/
theorem C41_polynomial_unlift_iff_nonneg (orders : List ℚ) (h1 : (1 : ℚ) ∉ orders) (p : ℚ)
    (hp : orders.find? (· ≠ 0) = some p) (Q L : List (List ℝ)) (h : polyLift realPow orders Q = .ok L) :
    polyUnlift realPow orders L = .ok Q ↔ p = -1 ∨ ∀ row ∈ Q, ∀ q ∈ row, 0 ≤ q := by
  obtain ⟨B, hB, hu⟩ := polyUnlift_blocks h1 hp h
  have hp0 : p ≠ 0 := by simpa using find?_some hp
  have hp1 : p ≠ 1 := fun e => h1 (e ▸ mem_of_find?_eq_some hp)
  rw [hu, powAll_iff]
  rw [powAll_iff] at hB
  constructor
  · intro hr
    by_cases hm : p = -1
    · exact .inl hm
    · right
      intro row hrow q hq
      obtain ⟨brow, r1, r2⟩ := forall2_self hB hr row hrow
      obtain ⟨b, s1, s2⟩ := forall2_self r1 r2 q hq
      by_contra hneg
      exact realPow_inv_neg hp0 hp1 hm (not_le.1 hneg) s1 s2
  · intro hc
    have hinv : ∀ row ∈ Q, ∀ q ∈ row, ∀ b, realPow q p = some b → realPow b (1 / p) = some q := by
      intro row hrow q hq b hqb
      rcases hc with rfl | hc
      · obtain ⟨f1, rfl⟩ := realPow_some hqb
        have hq0 : q ≠ 0 := fun e => f1 (.inl ⟨e, by norm_num⟩)
        have e1 : q ^ (((-1 : ℚ)) : ℝ) = q⁻¹ := by
          rw [show ((-1 : ℚ) : ℝ) = -1 by norm_num, Real.rpow_neg_one]
        rw [e1, show (1 : ℚ) / -1 = -1 by norm_num, realPow_of]
        · rw [show ((-1 : ℚ) : ℝ) = -1 by norm_num, Real.rpow_neg_one, inv_inv]
        · rintro (⟨h2, _⟩ | ⟨_, h2⟩)
          · exact hq0 (inv_eq_zero.1 h2)
          · exact h2 rfl
      · exact realPow_inv_nonneg hp0 (hc row hrow q hq) hqb
    clear hu h hc
    induction hB with
    | nil => exact .nil
    | cons hr _ ih =>
      refine .cons ?_ (ih fun row hrow => hinv row (by simp [hrow]))
      have hrow := hinv _ (mem_cons_self)
      clear hinv ih
      induction hr with
      | nil => exact .nil
      | cons hq _ ih' =>
        exact .cons (hrow _ (mem_cons_self) _ hq) (ih' fun q hq' => hrow q (by simp [hq']))

/-- C41, negation: for orders without 1 whose first nonzero order is an even integer, `unlift` returns the
absolute values of the states. -/
theorem C41_polynomial_unlift_abs (orders : List ℚ) (h1 : (1 : ℚ) ∉ orders) (m : ℤ) (hm : m ≠ 0)
    (hp : orders.find? (· ≠ 0) = some ((2 * m : ℤ) : ℚ)) (Q L : List (List ℝ))
    (h : polyLift realPow orders Q = .ok L) :
    polyUnlift realPow orders L = .ok (Q.map (map (|·|))) := by
  obtain ⟨B, hB, hu⟩ := polyUnlift_blocks h1 hp h
  rw [hu, powAll_iff]
  rw [powAll_iff] at hB
  clear hu h
  induction hB with
  | nil => exact .nil
  | cons hr _ ih =>
    refine .cons ?_ ih
    clear ih
    induction hr with
    | nil => exact .nil
    | cons hq _ ih' => exact .cons (realPow_inv_even hm hq) ih'

/-- C41: if every order is zero, `unlift` raises ZeroDivisionError. -/
theorem C41_polynomial_zero_orders (pw : PowFn K) (orders : List ℚ) (h0 : ∀ p ∈ orders, p = 0)
    (Q L : List (List K)) (h : polyLift pw orders Q = .ok L) : polyUnlift pw orders L = .error .zeroDivision := by
  obtain ⟨bs, rfl, hl, hne, hb, hbs⟩ := polyLift_ok h
  have hs := splitRows_flatten _ bs hb hne
  rw [hl] at hs
  have h1 : (1 : ℚ) ∉ orders := fun hm => absurd (h0 1 hm) one_ne_zero
  simp only [polyUnlift, hs, bind, Except.bind, h1, if_false]
  exact unliftLoop_zero pw h0 bs

/-- C41: `lift_ddts` is the derivative of the lifted states along any curve of states with the given
derivative, whenever it gives finite numbers and the lifted states are finite near the given time. -/
theorem C41_polynomial_ddts (orders : List ℚ) (Q : ℝ → List (List ℝ)) (L : ℝ → List (List ℝ))
    (D E : List (List ℝ)) (t : ℝ) (shape : List Nat) (hQ : ∀ s, (Q s).map length = shape)
    (hd : ∀ i j, HasDerivAt (fun s => rowEntry (Q s) i j) (rowEntry D i j) t)
    (hL : ∀ᶠ s in nhds t, polyLift realPow orders (Q s) = .ok (L s))
    (hE : polyLiftDdts realPow orders (Q t) D = .ok E) :
    E.length = (L t).length ∧ ∀ m i j, m < orders.length → i < shape.length → j < shape.getD i 0 →
      HasDerivAt (fun s => rowEntry (L s) (m * shape.length + i) j)
        (rowEntry E (m * shape.length + i) j) t := by
  have lQ : ∀ s, (Q s).length = shape.length := fun s => by simpa using congrArg length (hQ s)
  have rQ : ∀ s i, ((Q s).getD i []).length = shape.getD i 0 := by
    intro s i
    rw [← hQ s]
    simp only [getD_eq_getElem?_getD, getElem?_map]
    cases (Q s)[i]? <;> simp
  have hE' : (orders.mapM (fun p => polyDdtsBlock realPow p (Q t) D) >>= concatRows) = .ok E := hE
  obtain ⟨es, rfl, el, ene, eb, ep⟩ := concat_ok (n := shape.length) (fun p B hB => by
    have := congrArg length (polyDdtsBlock_ok hB).1
    simpa [lQ t] using this) hE'
  have hLt := C41_polynomial_entries _ _ _ _ hL.self_of_nhds
  refine ⟨by rw [length_flatten_const _ es eb, hLt.2.1, el, lQ], ?_⟩
  intro m i j hm hi hj
  obtain ⟨v, hv, he⟩ := (polyDdtsBlock_ok (ep m hm)).2 i j (by rw [lQ]; exact hi) (by rw [rQ]; exact hj)
  have e1 : rowEntry es.flatten (m * shape.length + i) j = rowEntry (es.getD m []) i j := by
    rw [rowEntry, getD_flatten_blocks _ es eb m i [] (by rw [el]; exact hm) hi, rowEntry]
  rw [e1, he]
  obtain ⟨hfin, rfl⟩ := realPow_some hv
  have hcond : rowEntry (Q t) i j ≠ 0 ∨ (1 : ℝ) ≤ ((orders.getD m 0 : ℚ) : ℝ) := by
    by_cases h0 : rowEntry (Q t) i j = 0
    · right
      have : ¬ (orders.getD m 0 - 1 < 0) := fun hlt => hfin (.inl ⟨h0, hlt⟩)
      have h1 : (1 : ℚ) ≤ orders.getD m 0 := by linarith [not_lt.1 this]
      exact_mod_cast h1
    · exact .inl h0
  have hder := (hd i j).rpow_const hcond
  have heq : (fun s => rowEntry (L s) (m * shape.length + i) j) =ᶠ[nhds t]
      fun s => rowEntry (Q s) i j ^ ((orders.getD m 0 : ℚ) : ℝ) := by
    filter_upwards [hL] with s hs
    have := (C41_polynomial_entries _ _ _ _ hs).2.2 m i j hm (by rw [lQ]; exact hi) (by rw [rQ]; exact hj)
    rw [lQ] at this
    exact (realPow_some this).2
  refine HasDerivAt.congr_of_eventuallyEq ?_ heq
  have hexp : (((orders.getD m 0 - 1 : ℚ)) : ℝ) = ((orders.getD m 0 : ℚ) : ℝ) - 1 := by push_cast; ring
  rw [hexp, show ∀ a b c : ℝ, a * b * c = c * a * b by intros; ring]
  exact hder

/-- C41: for states without zero or negative entries both are finite, for every list of orders. -/
theorem C41_polynomial_ddts_defined (orders : List ℚ) (hne : orders ≠ []) (Q D : List (List ℝ))
    (hpos : ∀ row ∈ Q, ∀ q ∈ row, 0 < q) (hD : D.map length = Q.map length) :
    (∃ L, polyLift realPow orders Q = .ok L) ∧ ∃ E, polyLiftDdts realPow orders Q D = .ok E := by
  have hsome : ∀ (p : ℚ), ∀ row ∈ Q, ∀ q ∈ row, (realPow q p).isSome := by
    intro p row hrow q hq
    have := hpos row hrow q hq
    rw [realPow_of (by rintro (⟨h, _⟩ | ⟨h, _⟩) <;> linarith)]
    rfl
  refine ⟨(C41_polynomial_finite _ _ _ hne).2 fun p _ => hsome p, ?_⟩
  have hblock : ∃ bs, (orders.mapM fun p => polyDdtsBlock realPow p Q D) = .ok bs := by
    rw [mapM_exists_ok]
    intro p _
    obtain ⟨B, hB⟩ := powAll_exists.2 (hsome (p - 1))
    have hs : sameShape (B.map (map ((p : ℝ) * ·))) D = true := by
      have := (powAll_ok hB).1
      simp only [sameShape, beq_iff_eq, hD, ← this, map_map]
      apply map_congr_left
      intro r _
      simp
    simp only [polyDdtsBlock, hB, bind, Except.bind, mulAll, hs, if_true]
    exact ⟨_, rfl⟩
  obtain ⟨bs, hbs⟩ := hblock
  have hne' : bs ≠ [] := by
    rintro rfl
    have := mapM_ok_length hbs
    simp at this
    exact hne (length_eq_zero_iff.1 this.symm)
  simp only [polyLiftDdts, hbs, bind, Except.bind, concatRows]
  simp [hne']

/-- C41, negation: with an order 0 the time derivatives are not finite as soon as one state is zero, although
the lifted states of that order are constant. -/
theorem C41_polynomial_ddts_zero_order (orders : List ℚ) (h0 : (0 : ℚ) ∈ orders) (Q D : List (List ℝ))
    (hz : ∃ row ∈ Q, (0 : ℝ) ∈ row) : ∃ e, polyLiftDdts realPow orders Q D = .error e := by
  cases hE : polyLiftDdts realPow orders Q D with
  | error e => exact ⟨e, rfl⟩
  | ok E =>
    exfalso
    simp only [polyLiftDdts, bind, Except.bind] at hE
    cases hb : orders.mapM fun p => polyDdtsBlock realPow p Q D with
    | error e => rw [hb] at hE; cases hE
    | ok bs =>
      obtain ⟨B, hB⟩ := mapM_exists_ok.1 ⟨bs, hb⟩ 0 h0
      simp only [polyDdtsBlock, bind, Except.bind] at hB
      cases hp : powAll realPow (0 - 1) Q with
      | error e => rw [hp] at hB; cases hB
      | ok P =>
        obtain ⟨row, hrow, hz⟩ := hz
        have := powAll_exists.1 ⟨P, hp⟩ row hrow 0 hz
        simp [realPow] at this

/-! ### Examples -/

-- The hypotheses of the inversion theorem: negative and fractional entries, orders (2, 1, -1).
example : polyLift intPow [2, 1, -1] [[(2 : ℚ), -3], [1/2, 1]] =
      .ok [[4, 9], [1/4, 1], [2, -3], [1/2, 1], [1/2, -1/3], [2, 1]] ∧
    polyUnlift intPow [2, 1, -1] [[(4 : ℚ), 9], [1/4, 1], [2, -3], [1/2, 1], [1/2, -1/3], [2, 1]] =
      .ok [[2, -3], [1/2, 1]] := by decide +kernel

-- Zero cannot be lifted to a negative order; rows that cannot be split evenly are refused.
example : polyLift intPow [1, -1] [[(0 : ℚ)]] = .error .nonfinite ∧
    polyUnlift intPow [1, -1] [[(0 : ℚ)], [1], [2]] = .error .value ∧
    polyLift intPow [] [[(1 : ℚ)]] = .error .value ∧ polyUnlift intPow [] [[(1 : ℚ)]] = .error .zeroDivision := by
  decide +kernel

example : quadLift [[(2 : ℚ), -3]] = [[2, -3], [4, 9]] ∧
    quadLiftDdts [[(2 : ℚ), -3]] [[1, 5]] = .ok [[1, 5], [4, -30]] ∧
    polyLiftDdts intPow [1, 2, 3] [[(2 : ℚ), -3]] [[1, 5]] = .ok [[1, 5], [4, -30], [12, 135]] := by decide +kernel

-- The characterisation without the order 1 applies to orders (0, 2).
example : [(0 : ℚ), 2].find? (· ≠ 0) = some (((2 * 1 : ℤ)) : ℚ) := by decide +kernel

/-! ### The orders -/

/-- C41: a sequence of numbers is stored as it is; anything else in the sequence raises TypeError; the
warning is given exactly for the single order 0. -/
theorem C41_orders (ps : List (Option ℚ)) :
    polyOrders (.seq ps) = if none ∈ ps then .error .type else .ok (ps.filterMap id, ps == [some 0]) := by
  change (if ps.any Option.isNone then (.error .type : Except Err (List ℚ × Bool))
    else .ok (ps.filterMap id, ps.filterMap id == [0])) = _
  by_cases h : none ∈ ps
  · rw [if_pos h, if_pos]
    rw [any_eq_true]
    exact ⟨none, h, rfl⟩
  · rw [if_neg h, if_neg]
    · congr 2
      obtain ⟨qs, rfl⟩ : ∃ qs : List ℚ, ps = qs.map some := by
        induction ps with
        | nil => exact ⟨[], rfl⟩
        | cons a ps ih =>
          obtain ⟨qs, rfl⟩ := ih fun hm => h (by simp [hm])
          cases a with
          | none => simp at h
          | some a => exact ⟨a :: qs, rfl⟩
      have : (qs.map some).filterMap id = qs := by simp [filterMap_map]
      rw [this, Bool.eq_iff_iff, beq_iff_eq, beq_iff_eq]
      constructor
      · rintro rfl; rfl
      · intro he
        have := congrArg (filterMap id) he
        simpa [filterMap_map] using this
    · rw [any_eq_true]
      rintro ⟨a, ha, hn⟩
      rw [Option.isNone_iff_eq_none.1 hn] at ha
      exact h ha

/-- C41, negation: a single number is truncated to an integer, so that `PolynomialLifter(p)` for a fraction
`0 < p < 1` is the map `q -> q^0` and differs from `PolynomialLifter((p,))`. -/
theorem C41_single_order_truncated (p : ℚ) (h0 : 0 < p) (h1 : p < 1) :
    polyOrders (.num p) = .ok ([0], true) ∧ polyOrders (.seq [some p]) = .ok ([p], false) := by
  have hi : pyInt p = 0 := by
    unfold pyInt
    have h2 : p.num < p.den := by
      have := Rat.num_div_den p
      have hd : (0 : ℚ) < p.den := by exact_mod_cast p.den_pos
      rw [← this, div_lt_one hd] at h1
      exact_mod_cast h1
    exact Int.tdiv_eq_zero_of_lt (Rat.num_pos.2 h0).le h2
  have hp : p ≠ 0 := ne_of_gt h0
  constructor
  · simp [polyOrders, OrdersArg.toSeq, hi]
  · simp [polyOrders, OrdersArg.toSeq, hp]

/-- C41: a single integer order is kept. -/
theorem C41_single_order_integer (m : ℤ) : polyOrders (.num m) = .ok ([(m : ℚ)], m == 0) := by
  have hi : pyInt (m : ℚ) = m := by simp [pyInt]
  simp only [polyOrders, OrdersArg.toSeq, hi]
  simp

end Opinf
