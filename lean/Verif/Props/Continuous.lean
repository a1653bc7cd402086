import Verif.Model.Continuous
import Verif.Props.ModelJacobian

/-!
# C79: what a time-continuous model integrates
-/

namespace Opinf

open List

variable {K : Type}

/-! ### Specification -/

/-- The input functions that `predict` accepts for the times `ts` starting with `t0`, and the function that the model
then sees. -/
inductive Accepted {S : Type} (M : Model K S) (spline : List K → List (List K) → Except Err (K → List K)) (ts : List K)
    (t0 : K) : InputFunc K → (K → Except Err (FuncVal K)) → Prop
  /-- a function whose value at `t0` is a vector of length `m` -/
  | vector {u : K → Except Err (FuncVal K)} {xs : List K} : u t0 = .ok (.vec xs) → some xs.length = M.m →
      Accepted M spline ts t0 (.func u) u
  /-- a function whose value at `t0` is a number, for one input -/
  | number {u : K → Except Err (FuncVal K)} {x : K} : u t0 = .ok (.num x) → M.m = some 1 →
      Accepted M spline ts t0 (.func u) (wrapNum u)
  /-- an array with one column for each time -/
  | array {a : Arg K} {s : K → List K} : some (atleast2d a).1 = M.m → (atleast2d a).2.length = ts.length →
      spline ts (atleast2d a).2 = .ok s → some (s t0).length = M.m →
      Accepted M spline ts t0 (.arr a) fun t => .ok (.vec (s t))

/-- The contract of the interpolation routine: the interpolant passes through the given values. -/
def PassesThrough (spline : List K → List (List K) → Except Err (K → List K)) : Prop :=
  ∀ ts cols s, spline ts cols = .ok s → ∀ j < ts.length, ∀ t, ts[j]? = some t → s t = cols.getD j []

/-! ### Helper lemmas -/

theorem checkInputFunction_ok {S : Type} (M : Model K S) (t0 : K) (u v : K → Except Err (FuncVal K)) :
    M.checkInputFunction t0 u = .ok v ↔ (∃ xs, u t0 = .ok (.vec xs) ∧ some xs.length = M.m ∧ v = u) ∨
      ∃ x, u t0 = .ok (.num x) ∧ M.m = some 1 ∧ v = wrapNum u := by
  simp only [Model.checkInputFunction, bind, Except.bind]
  cases h : u t0 with
  | error e => simp
  | ok y =>
    cases y with
    | num x =>
      simp only
      by_cases hm : M.m = some 1
      · rw [if_pos hm]
        simp only [pure, Except.pure, Except.ok.injEq, reduceCtorEq, false_and, exists_false, false_or, FuncVal.num.injEq]
        constructor
        · rintro rfl; exact ⟨x, rfl, hm, rfl⟩
        · rintro ⟨_, _, _, rfl⟩; rfl
      · rw [if_neg hm]
        simp [throw, throwThe, MonadExceptOf.throw, hm]
    | vec xs =>
      simp only
      by_cases hm : some xs.length = M.m
      · rw [if_pos hm]
        simp only [pure, Except.pure, Except.ok.injEq, reduceCtorEq, false_and, exists_false, or_false, FuncVal.vec.injEq]
        constructor
        · rintro rfl; exact ⟨xs, rfl, hm, rfl⟩
        · rintro ⟨_, _, _, rfl⟩; rfl
      · rw [if_neg hm]
        simp only [throw, throwThe, MonadExceptOf.throw, reduceCtorEq, Except.ok.injEq, FuncVal.vec.injEq, false_and,
          exists_false, or_false, false_iff]
        rintro ⟨_, rfl, h', _⟩
        exact hm h'
    | other => simp [throw, throwThe, MonadExceptOf.throw]

theorem processInput_ok {S : Type} (M : Model K S) (hM : M.hasInputs = true)
    (spline : List K → List (List K) → Except Err (K → List K)) (ts : List K) (t0 : K) (ht : ts.head? = some t0)
    (input : InputFunc K) (u : K → Except Err (FuncVal K)) :
    M.processInput spline ts input = .ok u ↔ Accepted M spline ts t0 input u := by
  rw [Model.processInput, if_pos hM]
  simp only [bind, Except.bind, ht]
  cases input with
  | none =>
    simp only [Model.inputFunction, reduceCtorEq, false_iff]
    intro h
    cases h
  | func w =>
    simp only [Model.inputFunction]
    rw [checkInputFunction_ok]
    constructor
    · rintro (⟨xs, h1, h2, rfl⟩ | ⟨x, h1, h2, rfl⟩)
      · exact .vector h1 h2
      · exact .number h1 h2
    · intro h
      cases h with
      | vector h1 h2 => exact .inl ⟨_, h1, h2, rfl⟩
      | number h1 h2 => exact .inr ⟨_, h1, h2, rfl⟩
  | arr a =>
    simp only [Model.inputFunction]
    by_cases hs : some (atleast2d a).1 ≠ M.m ∨ (atleast2d a).2.length ≠ ts.length
    · rw [if_pos hs]
      simp only [reduceCtorEq, false_iff]
      intro h
      cases h with
      | array h1 h2 _ _ =>
        rcases hs with h | h
        · exact h h1
        · exact h h2
    · rw [if_neg hs]
      push Not at hs
      cases hsp : spline ts (atleast2d a).2 with
      | error e =>
        simp only [Except.map, reduceCtorEq, false_iff]
        intro h
        cases h with
        | array _ _ h3 _ => rw [hsp] at h3; cases h3
      | ok s =>
        simp only [Except.map]
        rw [checkInputFunction_ok]
        constructor
        · rintro (⟨xs, h1, h2, rfl⟩ | ⟨x, h1, h2, rfl⟩)
          · cases h1
            exact .array hs.1 hs.2 hsp h2
          · cases h1
        · intro h
          have hv : (fun t => (Except.ok (FuncVal.vec (s t)) : Except Err (FuncVal K))) = fun t => .ok (.vec (s t)) := rfl
          cases h with
          | @array _ s' h1 h2 h3 h4 =>
            rw [hsp] at h3
            cases h3
            exact .inl ⟨_, rfl, h4, hv.symm⟩

/-! ### Property theorems -/

/-- **C79** (which calls are made): `predict` calls the integrator exactly when the model is trained, the initial state is
a vector of the state dimension, the time domain is a nonempty vector, and (for models with inputs) the input function is
accepted. It integrates the right-hand side of the model with this input from the first to the last time, starting from
the initial state, and asks for the solution at the given times; implicit methods get the Jacobian of the model. -/
theorem C79_predict_call {S J : Type} [Field K] (M : Model K S)
    (spline : List K → List (List K) → Except Err (K → List K)) (state0 t : Arg K) (input : InputFunc K)
    (method : Option String) (jac : Option J) (call : IvpCall K J) :
    M.predictCall spline state0 t input method jac = .ok call ↔
      M.checkTrained = .ok () ∧ ∃ q0 ts t0 t1 u, state0 = .vec q0 ∧ some q0.length = M.r ∧ t = .vec ts ∧
        ts.head? = some t0 ∧ ts.getLast? = some t1 ∧
        (M.hasInputs = true → Accepted M spline ts t0 input u) ∧ (M.hasInputs = false → u = fun _ => .ok .other) ∧
        call.fn = M.crhs u ∧ call.modelJac = M.cjacobian u ∧ call.span = (t0, t1) ∧ call.y0 = q0 ∧ call.tEval = ts ∧
        call.method = method ∧
        call.jac = if needsJacobian method then .model else jac.elim .absent .user := by
  constructor
  · intro h
    simp only [Model.predictCall, bind, Except.bind] at h
    split at h
    · cases h
    rename_i htr
    split at h
    · cases h
    rename_i q0 hq0
    split at h
    · cases h
    rename_i hin
    split at h
    · cases h
    rename_i ts hts
    split at h
    · cases h
    rename_i u hu
    split at h
    · cases h
    rename_i span hspan
    cases h
    refine ⟨htr, ?_⟩
    cases state0 with
    | scalar x => cases hq0
    | mat n c => cases hq0
    | vec q =>
      simp only [Model.checkState0] at hq0
      split at hq0
      · rename_i hr
        cases hq0
        cases t with
        | scalar x => cases hts
        | mat n c => cases hts
        | vec ts' =>
          cases hts
          simp only [timeSpan] at hspan
          split at hspan
          · rename_i t0 t1 h0 h1
            cases hspan
            refine ⟨_, _, t0, t1, u, rfl, hr, rfl, h0, h1, ?_, ?_, rfl, rfl, rfl, rfl, rfl, rfl, rfl⟩
            · intro hi
              exact (processInput_ok M hi spline ts t0 h0 input u).1 hu
            · intro hi
              rw [Model.processInput, if_neg (by simp [hi])] at hu
              cases hu
              rfl
          · cases hspan
      · cases hq0
  · rintro ⟨htr, q0, ts, t0, t1, u, rfl, hr, rfl, h0, h1, ha, hb, e1, e2, e3, e4, e5, e6, e7⟩
    have hu : M.processInput spline ts input = .ok u := by
      cases hi : M.hasInputs
      · rw [Model.processInput, if_neg (by simp [hi]), hb hi]
      · exact (processInput_ok M hi spline ts t0 h0 input u).2 (ha hi)
    have hin : M.checkInputFunc input = .ok () := by
      cases input with
      | none =>
        cases hi : M.hasInputs
        · simp [Model.checkInputFunc, hi]
        · cases ha hi
      | func w => rfl
      | arr a => rfl
    simp only [Model.predictCall, bind, Except.bind, htr, Model.checkState0, hr, hin, timeVector, hu, timeSpan, h0, h1,
      if_true]
    obtain ⟨a, b, c, d, e, f, g⟩ := call
    simp only at e1 e2 e3 e4 e5 e6 e7
    subst e1 e2 e3 e4 e5 e6 e7
    rfl

/-- **C79** (the function that is integrated): without inputs it is the right-hand side of the model; with a function
that returns vectors or numbers its value at time `s` is the input; with an array the input at the `j`-th time is the
`j`-th column. -/
theorem C79_integrand {S J : Type} [Field K] (M : Model K S)
    (spline : List K → List (List K) → Except Err (K → List K)) (hsp : PassesThrough spline) (q0 ts : List K)
    (input : InputFunc K) (method : Option String) (jac : Option J) (call : IvpCall K J)
    (h : M.predictCall spline (.vec q0) (.vec ts) input method jac = .ok call) :
    (M.hasInputs = false → ∀ s q, call.fn s q = M.rhs q none) ∧
    (M.hasInputs = true → match input with
      | .none => False
      | .func u => (∀ t0 xs, ts.head? = some t0 → u t0 = .ok (.vec xs) →
          ∀ s q ys, u s = .ok (.vec ys) → call.fn s q = M.rhs q (some ys)) ∧
        (∀ t0 x, ts.head? = some t0 → u t0 = .ok (.num x) →
          ∀ s q y, u s = .ok (.num y) → call.fn s q = M.rhs q (some [y]))
      | .arr a => ∀ j < ts.length, ∀ t, ts[j]? = some t → ∀ q, call.fn t q = M.rhs q (some ((atleast2d a).2.getD j []))) := by
  obtain ⟨-, q0', ts', t0, t1, u, e1, -, e2, h0, -, ha, hb, hfn, -⟩ := (C79_predict_call ..).1 h
  cases e1
  cases e2
  refine ⟨fun hi s q => ?_, fun hi => ?_⟩
  · rw [hfn, Model.crhs, if_neg (by simp [hi])]
  · have hacc := ha hi
    rw [hfn]
    cases hacc with
    | @vector u xs h1 h2 =>
      refine ⟨fun t0' ys g0 g1 s q zs hz => ?_, fun t0' x g0 g1 => ?_⟩
      · simp only [Model.crhs, hi, if_true, bind, Except.bind, hz]
      · rw [h0, Option.some.injEq] at g0
        subst g0
        rw [h1] at g1
        cases g1
    | @number w x h1 h2 =>
      refine ⟨fun t0' ys g0 g1 => ?_, fun t0' x g0 g1 s q y hy => ?_⟩
      · rw [h0, Option.some.injEq] at g0
        subst g0
        rw [h1] at g1
        cases g1
      · simp only [Model.crhs, hi, if_true, bind, Except.bind, wrapNum, hy, pure, Except.pure]
    | @array a s h1 h2 h3 h4 =>
      intro j hj t ht q
      simp only [Model.crhs, hi, if_true, bind, Except.bind]
      rw [hsp ts _ s h3 j hj t ht]

/-- **C79** (without inputs the argument `input_func` does not matter). -/
theorem C79_no_inputs {S J : Type} [Field K] (M : Model K S) (hM : M.hasInputs = false)
    (spline : List K → List (List K) → Except Err (K → List K)) (state0 t : Arg K) (input input' : InputFunc K)
    (method : Option String) (jac : Option J) :
    M.predictCall spline state0 t input method jac = M.predictCall spline state0 t input' method jac := by
  have h1 : ∀ i, M.checkInputFunc i = .ok () := by
    intro i
    cases i <;> simp [Model.checkInputFunc, hM]
  have h2 : ∀ ts i, M.processInput spline ts i = .ok fun _ => .ok .other := by
    intro ts i
    rw [Model.processInput, if_neg (by simp [hM])]
  simp only [Model.predictCall, h1, h2]

/-- **C79** (implicit methods): `BDF`, `Radau` and `LSODA` get the Jacobian of the model, whatever `jac` is given; other
methods get the `jac` that was given. -/
theorem C79_jacobian_choice {S J : Type} [Field K] (M : Model K S)
    (spline : List K → List (List K) → Except Err (K → List K)) (state0 t : Arg K) (input : InputFunc K)
    (method : Option String) (jac : Option J) (call : IvpCall K J)
    (h : M.predictCall spline state0 t input method jac = .ok call) :
    (method = some "BDF" ∨ method = some "Radau" ∨ method = some "LSODA" → call.jac = .model) ∧
    (¬ (method = some "BDF" ∨ method = some "Radau" ∨ method = some "LSODA") → call.jac = jac.elim .absent .user) := by
  obtain ⟨-, q0, ts, t0, t1, u, -, -, -, -, -, -, -, -, -, -, -, -, -, hj⟩ := (C79_predict_call ..).1 h
  have : needsJacobian method = true ↔ (method = some "BDF" ∨ method = some "Radau" ∨ method = some "LSODA") := by
    simp [needsJacobian, or_assoc]
  rw [← this]
  refine ⟨fun g => by rw [hj, if_pos g], fun g => by rw [hj, if_neg g]⟩

/-- **C79** (the Jacobian): the Jacobian that the integrator gets is the exact derivative of the function that it
integrates, at every time at which the input is a vector of the right length. -/
theorem C79_jacobian_exact {S J : Type} [Field K] [CharZero K] (M : Model K S) (r m : Nat) (hM : M.Trained r m)
    (spline : List K → List (List K) → Except Err (K → List K)) (state0 : Arg K) (ts : List K) (input : InputFunc K)
    (method : Option String) (jac : Option J) (call : IvpCall K J)
    (h : M.predictCall spline state0 (.vec ts) input method jac = .ok call) :
    ∃ t0 u, ts.head? = some t0 ∧ (M.hasInputs = true → Accepted M spline ts t0 input u) ∧
      ∀ (s : K) (q d : List K), q.length = r → d.length = r →
      (M.hasInputs = true → ∃ xs, u s = .ok (.vec xs) ∧ xs.length = m) →
      ∃ D : List (List K), call.modelJac s q = .ok D ∧ D.length = r ∧ (∀ row ∈ D, row.length = r) ∧
        ∃ R2 R3 R4 : List K, R2.length = r ∧ R3.length = r ∧ R4.length = r ∧ ∀ x : K, ∃ a0 a1,
          call.fn s q = .ok a0 ∧ call.fn s (vadd q (vsmul x d)) = .ok a1 ∧
          a1 = taylor x a0 (matVec D d) R2 R3 R4 := by
  obtain ⟨-, q0, ts', t0, t1, u, -, -, e2, h0, -, ha, -, hfn, hmj, -⟩ := (C79_predict_call ..).1 h
  cases e2
  refine ⟨t0, u, h0, ha, fun s q d hq hd hv => ?_⟩
  rw [hfn, hmj]
  cases hi : M.hasInputs
  · obtain ⟨D, d1, d2, d3, R2, R3, R4, r2, r3, r4, hD⟩ := C78_jacobian_is_derivative M r m hM q [] d hq
      (fun h => by rw [hi] at h; cases h) hd
    have hno : ∀ o ∈ M.ops, o.kind.hasInputs = false := by
      intro o ho
      have := hM.inv.inputs
      rw [hi] at this
      simpa using (any_eq_false.mp this.symm) o ho
    have hf : ∀ q', M.crhs u s q' = M.rhs q' (some []) := by
      intro q'
      rw [Model.crhs, if_neg (by simp [hi])]
      exact C21_rhs_ignores_inputs M hno q' _ _
    refine ⟨D, by rw [Model.cjacobian, if_neg (by simp [hi])]; exact d1, d2, d3, R2, R3, R4, r2, r3, r4, fun x => ?_⟩
    rw [hf, hf]
    exact hD x
  · obtain ⟨xs, hxs, hxl⟩ := hv hi
    obtain ⟨D, d1, d2, d3, R2, R3, R4, r2, r3, r4, hD⟩ := C78_jacobian_is_derivative M r m hM q xs d hq
      (fun _ => hxl) hd
    have hf : ∀ q', M.crhs u s q' = M.rhs q' (some xs) := by
      intro q'
      simp only [Model.crhs, hi, if_true, bind, Except.bind, hxs]
    refine ⟨D, ?_, d2, d3, R2, R3, R4, r2, r3, r4, fun x => ?_⟩
    · simp only [Model.cjacobian, hi, if_true, bind, Except.bind, hxs]
      exact d1
    · rw [hf, hf]
      exact hD x

/-- **C79** (error branches, in the order in which they are checked). -/
theorem C79_errors {S J : Type} [Field K] (M : Model K S) (spline : List K → List (List K) → Except Err (K → List K))
    (state0 t : Arg K) (input : InputFunc K) (method : Option String) (jac : Option J) :
    (∀ e, M.checkTrained = .error e → M.predictCall spline state0 t input method jac = .error e) ∧
    (M.checkTrained = .ok () → (∀ q0, state0 = .vec q0 → some q0.length ≠ M.r) →
      M.predictCall spline state0 t input method jac = .error .dimensionality) ∧
    (∀ q0, M.checkTrained = .ok () → state0 = .vec q0 → some q0.length = M.r → M.hasInputs = true → input = .none →
      M.predictCall spline state0 t input method jac = .error .value) ∧
    (∀ q0, M.checkTrained = .ok () → state0 = .vec q0 → some q0.length = M.r → (M.hasInputs = true → input ≠ .none) →
      ((∀ ts, t ≠ .vec ts) → M.predictCall spline state0 t input method jac = .error .value) ∧
      (M.hasInputs = false → t = .vec [] → M.predictCall spline state0 t input method jac = .error .index) ∧
      (∀ u, input = .func u → t = .vec [] → M.predictCall spline state0 t input method jac = .error .index) ∧
      (∀ ts a, M.hasInputs = true → t = .vec ts → input = .arr a →
        (some (atleast2d a).1 ≠ M.m ∨ (atleast2d a).2.length ≠ ts.length) →
        M.predictCall spline state0 t input method jac = .error .value) ∧
      (∀ ts t0 u y, M.hasInputs = true → t = .vec ts → ts.head? = some t0 → input = .func u → u t0 = .ok y →
        (∀ x, y = .num x → M.m ≠ some 1) → (∀ xs, y = .vec xs → some xs.length ≠ M.m) →
        M.predictCall spline state0 t input method jac = .error .dimensionality)) := by
  refine ⟨fun e h => ?_, fun h1 h2 => ?_, fun q0 h1 h2 h3 h4 h5 => ?_, fun q0 h1 h2 h3 h4 => ?_⟩
  · simp only [Model.predictCall, h, bind, Except.bind]
  · have : M.checkState0 state0 = .error .dimensionality := by
      cases state0 with
      | scalar x => rfl
      | mat n c => rfl
      | vec q0 => rw [Model.checkState0, if_neg (h2 q0 rfl)]
    simp only [Model.predictCall, h1, this, bind, Except.bind]
  · subst h2 h5
    simp only [Model.predictCall, h1, Model.checkState0, h3, Model.checkInputFunc, h4, bind, Except.bind, if_true]
  · subst h2
    have hin : M.checkInputFunc input = .ok () := by
      cases input with
      | none =>
        cases hi : M.hasInputs
        · simp [Model.checkInputFunc, hi]
        · exact absurd rfl (h4 hi)
      | func w => rfl
      | arr a => rfl
    have hst : M.checkState0 (.vec q0) = .ok q0 := by rw [Model.checkState0, if_pos h3]
    refine ⟨fun ht => ?_, fun hi ht => ?_, fun u hu ht => ?_, fun ts a hi ht ha hs => ?_,
      fun ts t0 u y hi ht h0 hu hy k1 k2 => ?_⟩
    · have : timeVector t = .error .value := by
        cases t with
        | scalar x => rfl
        | mat n c => rfl
        | vec ts => exact absurd rfl (ht ts)
      simp only [Model.predictCall, h1, hst, hin, this, bind, Except.bind]
    · subst ht
      have : M.processInput spline [] input = .ok fun _ => .ok .other := by
        rw [Model.processInput, if_neg (by simp [hi])]
      simp only [Model.predictCall, h1, hst, hin, timeVector, this, bind, Except.bind]
      rfl
    · subst ht hu
      cases hi : M.hasInputs
      · have : M.processInput spline [] (.func u) = .ok fun _ => .ok .other := by
          rw [Model.processInput, if_neg (by simp [hi])]
        simp only [Model.predictCall, h1, hst, hin, timeVector, this, bind, Except.bind]
        rfl
      · have : M.processInput spline [] (.func u) = .error .index := by
          rw [Model.processInput, if_pos hi]
          rfl
        simp only [Model.predictCall, h1, hst, hin, timeVector, this, bind, Except.bind]
    · subst ht ha
      have : M.processInput spline ts (.arr a) = .error .value := by
        rw [Model.processInput, if_pos hi, Model.inputFunction, if_pos hs]
        rfl
      simp only [Model.predictCall, h1, hst, hin, timeVector, this, bind, Except.bind]
    · subst ht hu
      have : M.processInput spline ts (.func u) = .error .dimensionality := by
        rw [Model.processInput, if_pos hi]
        simp only [Model.inputFunction, h0, bind, Except.bind, Model.checkInputFunction, hy]
        cases y with
        | num x => simp only; rw [if_neg (k1 x rfl)]; rfl
        | vec xs => simp only; rw [if_neg (k2 xs rfl)]; rfl
        | other => rfl
      simp only [Model.predictCall, h1, hst, hin, timeVector, this, bind, Except.bind]

/-! ### Examples -/

/-- The interpolant of a single value. -/
def exSpline : List ℚ → List (List ℚ) → Except Err (ℚ → List ℚ)
  | [_], [c] => .ok fun _ => c
  | _, _ => .error .value

theorem exSpline_passes : PassesThrough exSpline := by
  intro ts cols s h j hj t ht
  unfold exSpline at h
  split at h
  · cases h
    simp only [length_cons, length_nil] at hj
    obtain rfl : j = 0 := by omega
    rfl
  · cases h

-- a model with inputs: a function returning numbers, a function returning vectors, an array; the function that is
-- integrated
example : ((exTrained.predictCall exSpline (.vec [1, 2]) (.vec [0, 1]) (.func fun t => .ok (.num (10 * t)))
    (some "BDF") (some ())).toOption.map fun c => c.fn 1 [1, 2]) = some (exTrained.rhs [1, 2] (some [10])) := by
  decide +kernel
example : ((exTrained.predictCall exSpline (.vec [1, 2]) (.vec [0, 1]) (.func fun t => .ok (.num (10 * t)))
    (some "BDF") (some ())).toOption.map fun c => c.modelJac 1 [1, 2]) = some (.ok [[1, 3], [2, 4]]) := by
  decide +kernel
example : ((exTrained.predictCall exSpline (.vec [1, 2]) (.vec [5]) (.arr (.mat 1 [[7]]))
    none (none : Option Unit)).toOption.map fun c => c.fn 5 [1, 2]) = some (exTrained.rhs [1, 2] (some [7])) := by
  decide +kernel
-- the shape of the input is checked at the first time only
example : ((exTrained.predictCall exSpline (.vec [1, 2]) (.vec [0, 1])
    (.func fun t => .ok (if t = 0 then .vec [3] else .other)) none (none : Option Unit)).toOption.map
    fun c => c.fn 1 [1, 2]) = some (.error .notImplemented) := by decide +kernel

end Opinf
