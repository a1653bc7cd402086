import Verif.Lemmas.Grad
import Verif.Lemmas.MonoFit

/-!
# C92: `ddt()`, `ddt_uniform()` and `ddt_nonuniform()`

Which estimator `ddt()` uses, that the two second-order estimators are the same function on uniform time domains,
and what happens to states of an integer type.
-/

namespace Opinf

open List

variable {K : Type}

/-! ### The two second-order estimators -/

/-- One row: the second-order differences of `ddt_uniform()` and those of `numpy.gradient`. -/
theorem rows_agree [Field K] [CharZero K] [DecidableEq K] {t f : List K} {dt : K} (hdt : dt ≠ 0)
    (hu : uniformDomain t = .ok dt) (hl : f.length = t.length) (h3 : 3 ≤ t.length) :
    gradRow t f = .ok (ddtUniformRow [scaled dt [-3, 4, -1] 2] (scaled dt [-1, 0, 1] 2) f) := by
  obtain ⟨g, hg⟩ := gradRow_defined hl h3
  obtain ⟨-, g1, g2, g3, g4⟩ := gradRow_at hl hg
  obtain ⟨u1, u2, u3, u4⟩ := uniformRow_at (f := f) dt (by omega)
  rw [hg]
  congr 1
  apply ext_getD_zero
  · rw [g1, u1, hl]
  intro j
  by_cases h0 : j = 0
  · subst h0
    rw [g2, u2, uniformDomain_at hu (by omega), uniformDomain_at hu (by omega), gradFirst]
    field_simp
    ring
  obtain ⟨i, rfl⟩ : ∃ i, j = i + 1 := ⟨j - 1, by omega⟩
  rcases Nat.lt_trichotomy (i + 2) t.length with h | h | h
  · rw [g3 i h, u3 i (by omega), uniformDomain_at hu (by omega), uniformDomain_at hu (by omega), gradInterior]
    field_simp
    ring
  · obtain ⟨m, hm⟩ : ∃ m, t.length = m + 3 := ⟨t.length - 3, by omega⟩
    obtain rfl : i = m + 1 := by omega
    rw [g4 m hm, u4 m (by omega), uniformDomain_at hu (by omega), uniformDomain_at hu (by omega), gradLast]
    field_simp
    ring
  · rw [getD_eq_getElem?_getD, getD_eq_getElem?_getD, getElem?_eq_none (by omega), getElem?_eq_none (by omega)]

/-- C92: on a uniform time domain with at least three points `ddt_nonuniform(states, t)` and
`ddt_uniform(states, dt)` return the same estimates. -/
theorem C92_estimators_agree [Field K] [CharZero K] [DecidableEq K] {t : List K} {dt : K} (hdt : dt ≠ 0)
    (hu : uniformDomain t = .ok dt) (h3 : 3 ≤ t.length) (A : Mat K) (hA : A.WF) (hk : A.ncols = t.length) :
    ddtNonuniform t A = ddtUniform A dt 2 := by
  have hr : A.rows.mapM (gradRow t) =
      .ok (A.rows.map (ddtUniformRow [scaled dt [-3, 4, -1] 2] (scaled dt [-1, 0, 1] 2))) :=
    mapM_ok_of fun f hf => rows_agree hdt hu ((hA.2 f hf).trans hk) h3
  have h3' : ¬ A.ncols < 2 + 1 := by omega
  simp only [ddtNonuniform, hk, ne_eq, not_true_eq_false, if_false, hr, bind, Except.bind, pure, Except.pure,
    ddtUniform, frontTable, Scheme.table]
  rw [if_neg (by omega)]
  rfl

/-! ### Which estimator is used -/

/-- What is asked for: differences of an order with a constant step, or second-order differences on a grid. -/
inductive DdtRequest (K : Type) where
  | step (h : K) (order : Nat)
  | grid (t : List K)

/-- A number, given as a float or as an integer. -/
inductive DdtVal.IsNumber [IntCast K] : DdtVal K → K → Prop
  | flt (x : K) : IsNumber (.flt x) x
  | int (z : Int) : IsNumber (.int z) (z : K)

/-- The documented ways of calling `ddt(states, …)`: a step (a float, or a number with the keyword `dt`), a step
and an order (each of them by position or by keyword), or a grid (by position or with the keyword `t`). -/
inductive Requested [Field K] : List (DdtVal K) → List (DdtKey × DdtVal K) → DdtRequest K → Prop
  | step (x : K) : Requested [.flt x] [] (.step x 2)
  | stepKey {v : DdtVal K} {x : K} : v.IsNumber x → Requested [] [(.dt, v)] (.step x 2)
  | orderPos {v w : DdtVal K} {x : K} {o : Nat} : v.IsNumber x → w.IsNumber (o : K) → Requested [v, w] [] (.step x o)
  | orderKey {v w : DdtVal K} {x : K} {o : Nat} : v.IsNumber x → w.IsNumber (o : K) →
      Requested [v] [(.order, w)] (.step x o)
  | keys {v w : DdtVal K} {x : K} {o : Nat} : v.IsNumber x → w.IsNumber (o : K) →
      Requested [] [(.dt, v), (.order, w)] (.step x o)
  | keys' {v w : DdtVal K} {x : K} {o : Nat} : v.IsNumber x → w.IsNumber (o : K) →
      Requested [] [(.order, w), (.dt, v)] (.step x o)
  | grid (t : List K) : Requested [.arr t] [] (.grid t)
  | gridKey (t : List K) : Requested [] [(.t, .arr t)] (.grid t)

/-- The requested estimate. -/
def DdtRequest.estimate [Field K] [DecidableEq K] (Y : Snap K) : DdtRequest K → Except Err (Mat K)
  | .step h o => match Y with
    | .vec _ => .error .dimensionality
    | .mat k rows => ddtUniform ⟨rows.length, k, rows⟩ h o
  | .grid t => match Y with
    | .vec _ => .error .dimensionality
    | .mat k rows => ddtNonuniform t ⟨rows.length, k, rows⟩

theorem scalar_iff [Field K] {v : DdtVal K} {x : K} : v.scalar = .ok x ↔ v.IsNumber x := by
  constructor
  · intro h
    cases v with
    | flt y => cases h; exact .flt _
    | int z => cases h; exact .int _
    | arr t => cases h
    | other => cases h
  · rintro (_ | _) <;> rfl

theorem uniform_orders [Field K] [DecidableEq K] {A M : Mat K} {h : K} {o : Nat} (e : ddtUniform A h o = .ok M) :
    o = 2 ∨ o = 4 ∨ o = 6 := by
  by_contra hn
  push Not at hn
  have : frontTable o = none := by
    unfold frontTable
    split <;> simp_all
  simp [ddtUniform, this] at e

theorem branch_iff [Field K] [CharZero K] [DecidableEq K] {v : DdtVal K} {o : Nat} (ho : o = 2 ∨ o = 4 ∨ o = 6) :
    v.branch = .ok o ↔ v.IsNumber (o : K) := by
  cases v with
  | flt x =>
    constructor
    · intro h
      have h : (if x = 2 then 2 else if x = 4 then 4 else if x = 6 then 6 else 0) = o := Except.ok.inj h
      have : x = o := by
        split at h
        · rename_i e; rw [e, ← h]; norm_num
        · split at h
          · rename_i e; rw [e, ← h]; norm_num
          · split at h
            · rename_i e; rw [e, ← h]; norm_num
            · omega
      subst this
      exact .flt _
    · intro h
      have hx : x = o := by cases h; rfl
      have h24 : (4 : K) ≠ 2 := by norm_num
      have h26 : (6 : K) ≠ 2 := by norm_num
      have h46 : (6 : K) ≠ 4 := by norm_num
      rcases ho with rfl | rfl | rfl <;> subst hx <;> simp [DdtVal.branch, h24, h26, h46]
  | int z =>
    constructor
    · intro h
      have h : (if z = 2 then 2 else if z = 4 then 4 else if z = 6 then 6 else 0) = o := Except.ok.inj h
      have : z = (o : Int) := by
        split at h
        · omega
        · split at h
          · omega
          · split at h
            · omega
            · omega
      subst this
      have := DdtVal.IsNumber.int (K := K) (o : Int)
      simpa using this
    · intro h
      have hx : z = (o : Int) := by
        generalize hy : (o : K) = y at h
        cases h
        exact_mod_cast hy.symm
      subst hx
      rcases ho with rfl | rfl | rfl <;> rfl
  | arr t => exact ⟨fun h => by (cases h), fun h => by (cases h)⟩
  | other =>
    refine ⟨fun h => ?_, fun h => by (cases h)⟩
    have : 0 = o := Except.ok.inj h
    omega

theorem uniformCall_iff [Field K] [CharZero K] [DecidableEq K] {Y D : Snap K} {v w : DdtVal K} :
    ddtUniformCall Y v w = .ok D ↔ ∃ (x : K) (o : Nat) (M : Mat K), v.IsNumber x ∧ w.IsNumber (o : K) ∧
      (DdtRequest.step x o).estimate Y = .ok M ∧ D = .mat M.ncols M.rows := by
  cases Y with
  | vec xs =>
    refine ⟨fun h => by (cases h), ?_⟩
    rintro ⟨_, _, _, _, _, h, _⟩
    cases h
  | mat k rows =>
    constructor
    · intro h
      simp only [ddtUniformCall, bind, Except.bind, pure, Except.pure] at h
      cases h1 : v.scalar with
      | error e => rw [h1] at h; cases h
      | ok x =>
        cases h2 : w.branch with
        | error e => rw [h1, h2] at h; cases h
        | ok o =>
          cases h3 : ddtUniform ⟨rows.length, k, rows⟩ x o with
          | error e => simp only [h1, h2, h3] at h; cases h
          | ok M =>
            simp only [h1, h2, h3] at h
            exact ⟨x, o, M, scalar_iff.1 h1, (branch_iff (uniform_orders h3)).1 h2, h3, (Except.ok.inj h).symm⟩
    · rintro ⟨x, o, M, h1, h2, h3, rfl⟩
      have h3 : ddtUniform ⟨rows.length, k, rows⟩ x o = .ok M := h3
      simp only [ddtUniformCall, scalar_iff.2 h1, (branch_iff (uniform_orders h3)).2 h2, h3, bind, Except.bind, pure,
        Except.pure]

theorem gridCall_iff [Field K] [DecidableEq K] {Y D : Snap K} {v : DdtVal K} :
    ddtNonuniformCall Y v = .ok D ↔ ∃ (t : List K) (M : Mat K), v = .arr t ∧
      (DdtRequest.grid t).estimate Y = .ok M ∧ D = .mat M.ncols M.rows := by
  cases Y with
  | vec xs =>
    refine ⟨fun h => by (cases h), ?_⟩
    rintro ⟨_, _, _, h, _⟩
    cases h
  | mat k rows =>
    constructor
    · intro h
      cases v with
      | arr t =>
        have h : (ddtNonuniform t ⟨rows.length, k, rows⟩).bind (fun M => .ok (.mat M.ncols M.rows)) = .ok D := h
        cases h3 : ddtNonuniform t ⟨rows.length, k, rows⟩ with
        | error e => rw [h3] at h; cases h
        | ok M => rw [h3] at h; exact ⟨t, M, rfl, h3, (Except.ok.inj h).symm⟩
      | flt x => cases h
      | int z => cases h
      | other => cases h
    · rintro ⟨t, M, rfl, h3, rfl⟩
      have h3 : ddtNonuniform t ⟨rows.length, k, rows⟩ = .ok M := h3
      change (ddtNonuniform t ⟨rows.length, k, rows⟩).bind (fun M => .ok (Snap.mat M.ncols M.rows)) = _
      rw [h3]
      rfl

/-- C92: `ddt(states, …)` returns exactly what the arguments ask for, and nothing else is accepted. -/
theorem C92_call_iff [Field K] [CharZero K] [DecidableEq K] (Y D : Snap K) (args : List (DdtVal K))
    (kwargs : List (DdtKey × DdtVal K)) :
    ddtCall Y args kwargs = .ok D ↔ ∃ (req : DdtRequest K) (M : Mat K), Requested args kwargs req ∧
      req.estimate Y = .ok M ∧ D = .mat M.ncols M.rows := by
  constructor
  · intro h
    unfold ddtCall at h
    split at h
    · cases h
    · obtain ⟨x, o, M, h1, h2, h3, h4⟩ := uniformCall_iff.1 h
      have : o = 2 := by
        generalize hy : (o : K) = y at h2
        cases h2
        exact_mod_cast hy
      subst this
      exact ⟨_, M, .stepKey h1, h3, h4⟩
    · obtain ⟨t, M, rfl, h3, h4⟩ := gridCall_iff.1 h
      exact ⟨_, M, .gridKey t, h3, h4⟩
    · cases h
    · obtain ⟨x, o, M, h1, h2, h3, h4⟩ := uniformCall_iff.1 h
      have : o = 2 := by
        generalize hy : (o : K) = y at h2
        cases h2
        exact_mod_cast hy
      subst this
      cases h1
      exact ⟨_, M, .step _, h3, h4⟩
    · obtain ⟨t, M, ht, h3, h4⟩ := gridCall_iff.1 h
      cases ht
      exact ⟨_, M, .grid _, h3, h4⟩
    · cases h
    · split at h
      · unfold ddtBound at h
        split at h
        · obtain ⟨x, o, M, h1, h2, h3, h4⟩ := uniformCall_iff.1 h
          exact ⟨_, M, .orderPos h1 h2, h3, h4⟩
        · obtain ⟨x, o, M, h1, h2, h3, h4⟩ := uniformCall_iff.1 h
          exact ⟨_, M, .orderKey h1 h2, h3, h4⟩
        · obtain ⟨x, o, M, h1, h2, h3, h4⟩ := uniformCall_iff.1 h
          exact ⟨_, M, .keys h1 h2, h3, h4⟩
        · obtain ⟨x, o, M, h1, h2, h3, h4⟩ := uniformCall_iff.1 h
          exact ⟨_, M, .keys' h1 h2, h3, h4⟩
        · cases h
      · cases h
  · rintro ⟨req, M, hr, h3, h4⟩
    have two : (DdtVal.int 2 : DdtVal K).IsNumber ((2 : Nat) : K) := by
      have := DdtVal.IsNumber.int (K := K) 2
      simpa using this
    cases hr with
    | step x => exact uniformCall_iff.2 ⟨x, 2, M, .flt x, two, h3, h4⟩
    | stepKey h1 => exact uniformCall_iff.2 ⟨_, 2, M, h1, two, h3, h4⟩
    | orderPos h1 h2 => cases h1 <;> exact uniformCall_iff.2 ⟨_, _, M, by constructor, h2, h3, h4⟩
    | orderKey h1 h2 => cases h1 <;> exact uniformCall_iff.2 ⟨_, _, M, by constructor, h2, h3, h4⟩
    | keys h1 h2 => exact uniformCall_iff.2 ⟨_, _, M, h1, h2, h3, h4⟩
    | keys' h1 h2 => exact uniformCall_iff.2 ⟨_, _, M, h1, h2, h3, h4⟩
    | grid t => exact gridCall_iff.2 ⟨t, M, rfl, h3, h4⟩
    | gridKey t => exact gridCall_iff.2 ⟨t, M, rfl, h3, h4⟩

/-! ### Errors -/

/-- C92: one-dimensional states are refused in every documented call. -/
theorem C92_vector_refused [Field K] [CharZero K] [DecidableEq K] (xs : List K) (args : List (DdtVal K))
    (kwargs : List (DdtKey × DdtVal K)) (req : DdtRequest K) (h : Requested args kwargs req) :
    ddtCall (.vec xs) args kwargs = .error .dimensionality := by
  cases h with
  | orderPos h1 h2 => cases h1 <;> rfl
  | orderKey h1 h2 => cases h1 <;> rfl
  | _ => rfl

/-- C92: without a step or a grid, and with more than two further arguments, `ddt()` raises TypeError; an integer
step is accepted by keyword only. -/
theorem C92_type_errors [Field K] [CharZero K] [DecidableEq K] (Y : Snap K) (args : List (DdtVal K))
    (kwargs : List (DdtKey × DdtVal K)) :
    ddtCall Y [] [] = .error .type ∧ (∀ v, ddtCall Y [] [(.order, v)] = .error .type) ∧
    (2 < args.length + kwargs.length → ddtCall Y args kwargs = .error .type) ∧
    ∀ z : Int, ddtCall Y [.int z] [] = .error .type ∧
      ddtCall Y [] [(.dt, .int z)] = ddtCall Y [] [(.dt, .flt (z : K))] := by
  refine ⟨rfl, fun _ => rfl, fun h => ?_, fun z => ⟨rfl, ?_⟩⟩
  · unfold ddtCall
    split <;> first | rfl | (simp at h; done) | (rw [if_neg (by omega)])
  · cases Y <;> rfl

/-! ### States of an integer type -/

/-- Truncation towards zero changes a number by less than one. -/
theorem pyInt_near (x : ℚ) : |((pyInt x : ℤ) : ℚ) - x| < 1 := by
  have hd : (0 : ℚ) < x.den := by exact_mod_cast x.den_pos
  have hmod : (x.den : ℤ) * x.num.tdiv x.den + x.num.tmod x.den = x.num := Int.mul_tdiv_add_tmod _ _
  have hlt : |x.num.tmod x.den| < (x.den : ℤ) := by
    rw [Int.abs_eq_natAbs, Int.natAbs_tmod]
    have : x.num.natAbs % (x.den : ℤ).natAbs < (x.den : ℤ).natAbs :=
      Nat.mod_lt _ (by simpa using x.den_pos)
    simpa using (by exact_mod_cast this : ((x.num.natAbs % (x.den : ℤ).natAbs : ℕ) : ℤ) < ((x.den : ℤ).natAbs : ℤ))
  have e : ((pyInt x : ℤ) : ℚ) - x = -((x.num.tmod x.den : ℤ) : ℚ) / x.den := by
    have h1 : ((x.num : ℤ) : ℚ) = x.den * ((x.num.tdiv x.den : ℤ) : ℚ) + ((x.num.tmod x.den : ℤ) : ℚ) := by
      exact_mod_cast hmod.symm
    have h2 : x * x.den = x.num := Rat.mul_den_eq_num x
    rw [pyInt, eq_div_iff hd.ne', sub_mul, h2, h1]
    ring
  rw [e, abs_div, abs_neg, abs_of_pos hd, div_lt_one hd]
  exact_mod_cast hlt

theorem pyInt_eq_iff (x : ℚ) : ((pyInt x : ℤ) : ℚ) = x ↔ ∃ z : ℤ, x = z := by
  constructor
  · exact fun h => ⟨_, h.symm⟩
  · rintro ⟨z, rfl⟩
    simp [pyInt]

theorem map_fixed {α : Type} {f : α → α} {l : List α} (h : l.map f = l) : ∀ x ∈ l, f x = x := by
  induction l with
  | nil => simp
  | cons a l ih =>
    rw [map_cons, cons.injEq] at h
    intro x hx
    rcases mem_cons.1 hx with rfl | hx
    · exact h.1
    · exact ih h.2 x hx

/-- C92 (partial): the estimates for states of an integer type differ from those for the same numbers by less than
one ... -/
theorem C92_integer_states_partial {A M : Mat ℚ} {dt : ℚ} {o : Nat} (h : ddtUniformTyped false A dt o = .ok M) :
    ∃ N, ddtUniformTyped true A dt o = .ok N ∧ N.nrows = M.nrows ∧ N.ncols = M.ncols ∧
      Forall₂ (Forall₂ fun x y => |x - y| < 1) N.rows M.rows := by
  have h : ddtUniform A dt o = .ok M := by
    cases h1 : ddtUniform A dt o with
    | error e => rw [ddtUniformTyped, h1] at h; cases h
    | ok M' => rw [ddtUniformTyped, h1] at h; exact h
  refine ⟨⟨M.nrows, M.ncols, M.rows.map (map fun x => ((pyInt x : ℤ) : ℚ))⟩, ?_, rfl, rfl, ?_⟩
  · rw [ddtUniformTyped, h]
    rfl
  · rw [forall₂_map_left_iff, forall₂_same]
    intro r _
    rw [forall₂_map_left_iff, forall₂_same]
    intro x _
    exact pyInt_near x

/-- ... and they are the same exactly if all of these are integers. -/
theorem C92_integer_iff {A M : Mat ℚ} {dt : ℚ} {o : Nat} (h : ddtUniformTyped false A dt o = .ok M) :
    ddtUniformTyped true A dt o = .ok M ↔ ∀ row ∈ M.rows, ∀ x ∈ row, ∃ z : ℤ, x = z := by
  have h : ddtUniform A dt o = .ok M := by
    cases h1 : ddtUniform A dt o with
    | error e => rw [ddtUniformTyped, h1] at h; cases h
    | ok M' => rw [ddtUniformTyped, h1] at h; exact h
  have e : ddtUniformTyped true A dt o =
      .ok ⟨M.nrows, M.ncols, M.rows.map (map fun x => ((pyInt x : ℤ) : ℚ))⟩ := by
    rw [ddtUniformTyped, h]
    rfl
  rw [e]
  constructor
  · intro h1 row hrow x hx
    have h1 : M.rows.map (map fun x => ((pyInt x : ℤ) : ℚ)) = M.rows := congrArg Mat.rows (Except.ok.inj h1)
    have h2 := map_fixed h1 row hrow
    exact (pyInt_eq_iff x).1 (map_fixed h2 x hx)
  · intro h1
    congr 1
    have : M.rows.map (map fun x => ((pyInt x : ℤ) : ℚ)) = M.rows :=
      (map_congr_left fun row hrow => (map_congr_left fun x hx => (pyInt_eq_iff x).2 (h1 row hrow x hx)).trans
        (map_id row)).trans (map_id _)
    rw [this]

/-- C92, negation: for the states `0, 1, 2, …` of an integer type and any step larger than one all estimates are zero,
instead of `1 / dt`. -/
theorem C92_integer_false (k : Nat) (hk : 3 ≤ k) (dt : ℚ) (hdt : 1 < dt) :
    ddtUniformTyped true ⟨1, k, [(range k).map fun j : Nat => (j : ℚ)]⟩ dt 2 = .ok ⟨1, k, [replicate k 0]⟩ ∧
    ddtUniformTyped false ⟨1, k, [(range k).map fun j : Nat => (j : ℚ)]⟩ dt 2 = .ok ⟨1, k, [replicate k (1 / dt)]⟩ := by
  have h0 : (0 : ℚ) < dt := lt_trans one_pos hdt
  have hl : ((range k).map fun j : Nat => (j : ℚ)).length = k := by simp
  have hf : ∀ j, j < k → ((range k).map fun j : Nat => (j : ℚ)).getD j 0 = j := by
    intro j hj
    simp [getD_eq_getElem?_getD, hj]
  obtain ⟨u1, u2, u3, u4⟩ := uniformRow_at (f := (range k).map fun j : Nat => (j : ℚ)) dt (by omega)
  have hrow : ddtUniformRow [scaled dt [-3, 4, -1] 2] (scaled dt [-1, 0, 1] 2) ((range k).map fun j : Nat => (j : ℚ)) =
      replicate k (1 / dt) := by
    apply ext_getD_zero
    · rw [u1, hl, length_replicate]
    intro j
    have hrep : j < k → (replicate k (1 / dt)).getD j 0 = 1 / dt := by
      intro hj
      simp [getD_eq_getElem?_getD, hj]
    by_cases hz : j = 0
    · subst hz
      rw [u2, hrep (by omega), hf 0 (by omega), hf 1 (by omega), hf 2 (by omega)]
      field_simp
      norm_num
    obtain ⟨i, rfl⟩ : ∃ i, j = i + 1 := ⟨j - 1, by omega⟩
    rcases Nat.lt_trichotomy (i + 2) k with h | h | h
    · rw [u3 i (by omega), hrep (by omega), hf i (by omega), hf (i + 2) (by omega)]
      push_cast
      field_simp
      ring
    · obtain ⟨m, rfl⟩ : ∃ m, i = m + 1 := ⟨i - 1, by omega⟩
      rw [u4 m (by omega), hrep (by omega), hf m (by omega), hf (m + 1) (by omega), hf (m + 2) (by omega)]
      push_cast
      field_simp
      ring
    · rw [getD_eq_getElem?_getD, getD_eq_getElem?_getD, getElem?_eq_none (by omega),
        getElem?_eq_none (by simp; omega)]
  have hM : ddtUniform ⟨1, k, [(range k).map fun j : Nat => (j : ℚ)]⟩ dt 2 = .ok ⟨1, k, [replicate k (1 / dt)]⟩ := by
    have e : ddtUniform ⟨1, k, [(range k).map fun j : Nat => (j : ℚ)]⟩ dt 2 = if k < 2 + 1 then .error .value else
        .ok ⟨1, k, [ddtUniformRow [scaled dt [-3, 4, -1] 2] (scaled dt [-1, 0, 1] 2)
          ((range k).map fun j : Nat => (j : ℚ))]⟩ := rfl
    rw [e, if_neg (by omega), hrow]
  have hint : pyInt (1 / dt) = 0 := by
    have h1 := pyInt_near (1 / dt)
    have hp : 0 < 1 / dt := by positivity
    have hlt : 1 / dt < 1 := by rw [div_lt_one h0]; exact hdt
    have hnum : (1 / dt).num < (1 / dt).den := by
      have := Rat.num_div_den (1 / dt)
      have hd : (0 : ℚ) < (1 / dt).den := by exact_mod_cast (1 / dt).den_pos
      rw [← this, div_lt_one hd] at hlt
      exact_mod_cast hlt
    exact Int.tdiv_eq_zero_of_lt (Rat.num_pos.2 hp).le hnum
  constructor
  · rw [ddtUniformTyped, hM]
    simp only [bind, Except.bind, pure, Except.pure, if_true, map_cons, map_nil, map_replicate, hint, Int.cast_zero]
  · rw [ddtUniformTyped, hM]
    rfl

/-! ### Examples -/

/-- A uniform grid and the two estimates. -/
example : uniformDomain ([1, 3 / 2, 2, 5 / 2] : List ℚ) = .ok (1 / 2) ∧
    ddtNonuniform ([1, 3 / 2, 2, 5 / 2] : List ℚ) ⟨1, 4, [[0, 1, 5, 2]]⟩ =
      ddtUniform ⟨1, 4, [[0, 1, 5, 2]]⟩ (1 / 2) 2 ∧
    ddtUniform (⟨1, 4, [[0, 1, 5, 2]]⟩ : Mat ℚ) (1 / 2) 2 = .ok ⟨1, 4, [[-1, 5, 1, -13]]⟩ :=
  ⟨by decide +kernel, C92_estimators_agree (by decide +kernel) (by decide +kernel) (by decide) _ (by decide) rfl,
    by decide +kernel⟩

/-- A call with a step and an order, a call with a grid, and an integer step given by position. -/
example : ddtCall (.mat 3 [[0, 1, 4]] : Snap ℚ) [] [(.order, .int 2), (.dt, .int 1)] = .ok (.mat 3 [[0, 2, 4]]) ∧
    ddtCall (.mat 3 [[0, 1, 4]] : Snap ℚ) [.arr [0, 1, 2]] [] = .ok (.mat 3 [[0, 2, 4]]) ∧
    ddtCall (.mat 3 [[0, 1, 4]] : Snap ℚ) [.int 1] [] = .error .type := by decide +kernel

example : Requested (K := ℚ) [] [(.order, .int 2), (.dt, .int 1)] (.step 1 2) := by
  have h1 := DdtVal.IsNumber.int (K := ℚ) 1
  have h2 := DdtVal.IsNumber.int (K := ℚ) 2
  exact .keys' (by simpa using h1) (by simpa using h2)

/-- Integer states with a step of two. -/
example : ddtUniformTyped true ⟨1, 4, [[0, 1, 2, 3]]⟩ 2 2 = .ok ⟨1, 4, [[0, 0, 0, 0]]⟩ ∧
    ddtUniformTyped false ⟨1, 4, [[0, 1, 2, 3]]⟩ 2 2 = .ok ⟨1, 4, [[1 / 2, 1 / 2, 1 / 2, 1 / 2]]⟩ := by
  decide +kernel

end Opinf
