import Verif.Props.LstsqTik

/-!
# C28: what an assignment to `regularizer` accepts, and what `reset()` does

`reset()` discards the data and the regularizer: nothing can be solved until both are given again, and
giving them again has the same effect as with a new solver.
-/

namespace Opinf

open List

variable {K : Type}

/-! ### Assigning regularizers -/

section

variable [Zero K] [LinearOrder K]

/-- **C28**: the regularizer of an `L2Solver` may be `None` or any number that is not negative; a
negative number raises `ValueError` and changes nothing. -/
theorem C28_l2_assignment (s : L2 K K) :
    s.setReg none = ({ s with reg := none }, .ok ()) ∧
    (∀ x, 0 ≤ x → s.setReg (some x) = ({ s with reg := some x }, .ok ())) ∧
    ∀ x, x < 0 → s.setReg (some x) = (s, .error .value) :=
  ⟨rfl, fun x h => by simp only [L2.setReg, if_neg (not_lt.2 h)],
    fun x h => by simp only [L2.setReg, if_pos h]⟩

/-- **C28**: the regularizers of an `L2DecoupledSolver`. `None` and, before the data are known, every
vector without negative entries are accepted. Once the data are known the vector must have one entry for
every row of the left-hand side; otherwise `DimensionalityError` is raised but the vector stays
assigned. A negative entry, or an array that is not a vector, raises `ValueError` and changes nothing. -/
theorem C28_l2_decoupled_assignment (s : L2 (List K) K) :
    s.setRegs none = ({ s with reg := none }, .ok ()) ∧
    (∀ xs, (∀ x ∈ xs, 0 ≤ x) → s.data = none →
      s.setRegs (some (.vec xs)) = ({ s with reg := some xs }, .ok ())) ∧
    (∀ xs D Z, (∀ x ∈ xs, 0 ≤ x) → s.data = some (D, Z) → xs.length = Z.nrows →
      s.setRegs (some (.vec xs)) = ({ s with reg := some xs }, .ok ())) ∧
    (∀ xs D Z, (∀ x ∈ xs, 0 ≤ x) → s.data = some (D, Z) → xs.length ≠ Z.nrows →
      s.setRegs (some (.vec xs)) = ({ s with reg := some xs }, .error .dimensionality)) ∧
    (∀ xs, (∃ x ∈ xs, x < 0) → s.setRegs (some (.vec xs)) = (s, .error .value)) ∧
    ∀ a, (∀ xs, a ≠ NdArg.vec xs) → s.setRegs (some a) = (s, .error .value) := by
  have hneg : ∀ xs : List K, (∀ x ∈ xs, 0 ≤ x) → ¬ xs.any (fun x => decide (x < 0)) = true := by
    intro xs h hx
    obtain ⟨x, hx, hl⟩ := any_eq_true.1 hx
    exact absurd (of_decide_eq_true hl) (not_lt.2 (h x hx))
  refine ⟨rfl, ?_, ?_, ?_, ?_, ?_⟩
  · intro xs h hd
    simp only [L2.setRegs, if_neg (hneg xs h), hd]
  · intro xs D Z h hd hl
    simp only [L2.setRegs, if_neg (hneg xs h), hd]
    simp [hl]
  · intro xs D Z h hd hl
    simp only [L2.setRegs, if_neg (hneg xs h), hd]
    simp [hl]
  · rintro xs ⟨x, hx, hl⟩
    have : xs.any (fun x => decide (x < 0)) = true := any_eq_true.2 ⟨x, hx, decide_eq_true hl⟩
    simp only [L2.setRegs, if_pos this]
  · intro a h
    cases a with
    | vec xs => exact absurd rfl (h xs)
    | mat A => rfl
    | other => rfl

/-- The vector `(1, -1)` is refused, `(1, 2)` accepted, and refused if the left-hand side has three rows. -/
example :
    (⟨none, none, none⟩ : L2 (List ℚ) ℚ).setRegs (some (.vec [1, -1])) =
      (⟨none, none, none⟩, .error .value) ∧
    (⟨none, none, none⟩ : L2 (List ℚ) ℚ).setRegs (some (.vec [1, 2])) =
      (⟨some [1, 2], none, none⟩, .ok ()) ∧
    ((⟨none, some (⟨1, 1, [[1]]⟩, ⟨3, 1, [[1], [2], [3]]⟩), none⟩ : L2 (List ℚ) ℚ).setRegs
      (some (.vec [1, 2]))).2 = .error .dimensionality := by
  refine ⟨by decide +kernel, by decide +kernel, by decide +kernel⟩

end

/-! ### Resetting -/

section

variable [Field K] [LinearOrder K]

/-- **C28**: after `L2Solver.reset()` there are no data and no regularizer, and `solve()` raises
`AttributeError`. It keeps doing so until both are given; after that the solver is in the state of a new
solver that received the same regularizer and data. -/
theorem C28_l2_reset (svd : Mat K → Except Err (Svd K)) (s : L2 K K) :
    s.reset.data = none ∧ s.reset.reg = none ∧ s.reset.solve = .error .attribute ∧
    (∀ a, (s.reset.setReg a).1.solve = .error .attribute) ∧
    (∀ D Z, (s.reset.fit svd D Z).1.solve = .error .attribute) ∧
    ∀ a D Z, ((s.reset.setReg a).1.fit svd D Z).2 =
        (((⟨none, none, none⟩ : L2 K K).setReg a).1.fit svd D Z).2 ∧
      (((s.reset.setReg a).1.fit svd D Z).2 = .ok () →
        ((s.reset.setReg a).1.fit svd D Z).1 =
          (((⟨none, none, none⟩ : L2 K K).setReg a).1.fit svd D Z).1) := by
  refine ⟨rfl, rfl, rfl, ?_, ?_, ?_⟩
  · intro a
    cases a with
    | none => rfl
    | some x =>
      by_cases hx : x < 0
      · simp only [L2.setReg, if_pos hx]; rfl
      · simp only [L2.setReg, if_neg hx]; rfl
  · intro D Z
    simp only [L2.fit]
    cases templateFit D Z with
    | error e => rfl
    | ok d =>
      simp only
      cases svd d.1 with
      | error e => rfl
      | ok u => rfl
  · have key : ∀ (p q : Option (L2Pre K)) (r : Option K) (D Z : NdArg K),
        ((⟨r, none, p⟩ : L2 K K).fit svd D Z).2 = ((⟨r, none, q⟩ : L2 K K).fit svd D Z).2 ∧
        (((⟨r, none, p⟩ : L2 K K).fit svd D Z).2 = .ok () →
          ((⟨r, none, p⟩ : L2 K K).fit svd D Z).1 = ((⟨r, none, q⟩ : L2 K K).fit svd D Z).1) := by
      intro p q r D Z
      simp only [L2.fit]
      cases templateFit D Z with
      | error e => exact ⟨rfl, fun h => by cases h⟩
      | ok d =>
        simp only
        cases svd d.1 with
        | error e => exact ⟨rfl, fun h => by cases h⟩
        | ok u => exact ⟨rfl, fun _ => rfl⟩
    intro a D Z
    cases a with
    | none => exact key s.pre none none D Z
    | some x =>
      by_cases hx : x < 0
      · simp only [L2.setReg, if_pos hx]; exact key s.pre none none D Z
      · simp only [L2.setReg, if_neg hx]; exact key s.pre none (some x) D Z

/-- **C28**: the same for `L2DecoupledSolver.reset()`. -/
theorem C28_l2_decoupled_reset (svd : Mat K → Except Err (Svd K)) (s : L2 (List K) K) :
    s.reset.data = none ∧ s.reset.reg = none ∧ s.reset.solveDec = .error .attribute ∧
    (∀ a, (s.reset.setRegs a).1.solveDec = .error .attribute) ∧
    (∀ D Z, (s.reset.fitDec svd D Z).1.solveDec = .error .attribute) ∧
    ∀ a D Z, ((s.reset.setRegs a).1.fitDec svd D Z).2 =
        (((⟨none, none, none⟩ : L2 (List K) K).setRegs a).1.fitDec svd D Z).2 ∧
      (((s.reset.setRegs a).1.fitDec svd D Z).2 = .ok () →
        ((s.reset.setRegs a).1.fitDec svd D Z).1 =
          (((⟨none, none, none⟩ : L2 (List K) K).setRegs a).1.fitDec svd D Z).1) := by
  have hset : ∀ a, ∃ r : Option (List K), (s.reset.setRegs a).1 = ⟨r, none, s.pre⟩ ∧
      ((⟨none, none, none⟩ : L2 (List K) K).setRegs a).1 = ⟨r, none, none⟩ := by
    intro a
    cases a with
    | none => exact ⟨none, rfl, rfl⟩
    | some a =>
      cases a with
      | vec xs =>
        by_cases hx : xs.any (fun x => decide (x < 0)) = true
        · exact ⟨none, by simp only [L2.setRegs, if_pos hx]; rfl,
            by simp only [L2.setRegs, if_pos hx]⟩
        · exact ⟨some xs, by simp only [L2.setRegs, if_neg hx]; rfl,
            by simp only [L2.setRegs, if_neg hx]⟩
      | mat A => exact ⟨none, rfl, rfl⟩
      | other => exact ⟨none, rfl, rfl⟩
  have key : ∀ (p q : Option (L2Pre K)) (r : Option (List K)) (D Z : NdArg K),
      ((⟨r, none, p⟩ : L2 (List K) K).fitDec svd D Z).2 =
        ((⟨r, none, q⟩ : L2 (List K) K).fitDec svd D Z).2 ∧
      (((⟨r, none, p⟩ : L2 (List K) K).fitDec svd D Z).2 = .ok () →
        ((⟨r, none, p⟩ : L2 (List K) K).fitDec svd D Z).1 =
          ((⟨r, none, q⟩ : L2 (List K) K).fitDec svd D Z).1) := by
    intro p q r D Z
    simp only [L2.fitDec, L2.fit]
    cases templateFit D Z with
    | error e => exact ⟨rfl, fun h => by cases h⟩
    | ok d =>
      simp only
      cases svd d.1 with
      | error e => exact ⟨rfl, fun h => by cases h⟩
      | ok u =>
        cases r with
        | none => exact ⟨rfl, fun _ => rfl⟩
        | some xs => exact ⟨rfl, fun _ => rfl⟩
  refine ⟨rfl, rfl, rfl, ?_, ?_, ?_⟩
  · intro a
    obtain ⟨r, h, -⟩ := hset a
    rw [h]
    rfl
  · intro D Z
    simp only [L2.fitDec, L2.fit]
    cases templateFit D Z with
    | error e => rfl
    | ok d =>
      simp only
      cases svd d.1 with
      | error e => rfl
      | ok u => rfl
  · intro a D Z
    obtain ⟨r, h, h'⟩ := hset a
    rw [h, h']
    exact key s.pre none r D Z

/-- After `reset()` the outcome of `fit` does not depend on what was computed before. -/
theorem tik_fit_anew {R : Type} (shape : Nat → Nat → R → Except Err Unit) (m : TikMethod)
    (p q : Option (TikPre K)) (r : Option R) (D Z : NdArg K) :
    ((⟨r, m, none, p⟩ : Tik R K).fit shape D Z).2 = ((⟨r, m, none, q⟩ : Tik R K).fit shape D Z).2 ∧
    (((⟨r, m, none, p⟩ : Tik R K).fit shape D Z).2 = .ok () →
      ((⟨r, m, none, p⟩ : Tik R K).fit shape D Z).1 =
        ((⟨r, m, none, q⟩ : Tik R K).fit shape D Z).1) := by
  simp only [Tik.fit]
  cases templateFit D Z with
  | error e => exact ⟨rfl, fun h => by cases h⟩
  | ok d =>
    cases r with
    | none => exact ⟨rfl, fun _ => rfl⟩
    | some G =>
      simp only
      cases shape d.2.nrows d.1.ncols G with
      | error e => exact ⟨rfl, fun h => by cases h⟩
      | ok _ => exact ⟨rfl, fun _ => rfl⟩

/-- A solver without regularizer that is given data has data but no regularizer, or is unchanged. -/
theorem tik_fit_unregularized {R : Type} (shape : Nat → Nat → R → Except Err Unit) (s : Tik R K)
    (h : s.reg = none) (D Z : NdArg K) : (s.fit shape D Z).1.reg = none := by
  simp only [Tik.fit]
  cases templateFit D Z with
  | error e => exact h
  | ok d =>
    simp only [h]

/-- **C28**: the same for `TikhonovSolver.reset()`; the method is kept. -/
theorem C28_tikhonov_reset (lstsq posSolve : Mat K → Mat K → Except Err (Mat K)) (s : Tik (Mat K) K) :
    s.reset.data = none ∧ s.reset.reg = none ∧ s.reset.method = s.method ∧
    s.reset.solve lstsq posSolve = .error .attribute ∧
    (∀ a, (s.reset.setReg a).1.solve lstsq posSolve = .error .attribute) ∧
    (∀ D Z, (s.reset.fit1 D Z).1.solve lstsq posSolve = .error .attribute) ∧
    ∀ a D Z, ((s.reset.setReg a).1.fit1 D Z).2 =
        (((⟨none, s.method, none, none⟩ : Tik (Mat K) K).setReg a).1.fit1 D Z).2 ∧
      (((s.reset.setReg a).1.fit1 D Z).2 = .ok () →
        ((s.reset.setReg a).1.fit1 D Z).1 =
          (((⟨none, s.method, none, none⟩ : Tik (Mat K) K).setReg a).1.fit1 D Z).1) := by
  have hset : ∀ a, ∃ r : Option (Mat K), (s.reset.setReg a).1 = ⟨r, s.method, none, s.pre⟩ ∧
      ((⟨none, s.method, none, none⟩ : Tik (Mat K) K).setReg a).1 = ⟨r, s.method, none, none⟩ := by
    intro a
    cases a with
    | none => exact ⟨none, rfl, rfl⟩
    | some a =>
      cases h : a.toMat with
      | error e => exact ⟨none, by simp only [Tik.setReg, h]; rfl, by simp only [Tik.setReg, h]⟩
      | ok G => exact ⟨some G, by simp only [Tik.setReg, h]; rfl, by simp only [Tik.setReg, h]⟩
  refine ⟨rfl, rfl, rfl, rfl, ?_, ?_, ?_⟩
  · intro a
    obtain ⟨r, h, -⟩ := hset a
    rw [h]
    rfl
  · intro D Z
    have h := tik_fit_unregularized (fun _ d G => tikShape d G) s.reset rfl D Z
    change (s.reset.fit1 D Z).1.reg = none at h
    generalize (s.reset.fit1 D Z).1 = t at h ⊢
    unfold Tik.solve
    rw [h]
    cases t.data with
    | none => rfl
    | some d => rfl
  · intro a D Z
    obtain ⟨r, h, h'⟩ := hset a
    rw [h, h']
    exact tik_fit_anew (fun _ d G => tikShape d G) s.method s.pre none r D Z

/-- **C28**: the same for `TikhonovDecoupledSolver.reset()`. -/
theorem C28_tikhonov_decoupled_reset (junk : K) (lstsq posSolve : Mat K → Mat K → Except Err (Mat K))
    (s : Tik (List (Mat K)) K) :
    s.reset.data = none ∧ s.reset.reg = none ∧ s.reset.method = s.method ∧
    s.reset.solveDec junk lstsq posSolve = .error .attribute ∧
    (∀ a, (s.reset.setRegs a).1.solveDec junk lstsq posSolve = .error .attribute) ∧
    (∀ D Z, (s.reset.fitDec D Z).1.solveDec junk lstsq posSolve = .error .attribute) ∧
    ∀ a D Z, ((s.reset.setRegs a).1.fitDec D Z).2 =
        (((⟨none, s.method, none, none⟩ : Tik (List (Mat K)) K).setRegs a).1.fitDec D Z).2 ∧
      (((s.reset.setRegs a).1.fitDec D Z).2 = .ok () →
        ((s.reset.setRegs a).1.fitDec D Z).1 =
          (((⟨none, s.method, none, none⟩ : Tik (List (Mat K)) K).setRegs a).1.fitDec D Z).1) := by
  have hset : ∀ a, ∃ r : Option (List (Mat K)), (s.reset.setRegs a).1 = ⟨r, s.method, none, s.pre⟩ ∧
      ((⟨none, s.method, none, none⟩ : Tik (List (Mat K)) K).setRegs a).1 = ⟨r, s.method, none, none⟩ := by
    intro a
    cases a with
    | none => exact ⟨none, rfl, rfl⟩
    | some a =>
      cases h : a.mapM RegArg.toMat with
      | error e => exact ⟨none, by simp only [Tik.setRegs, h]; rfl, by simp only [Tik.setRegs, h]⟩
      | ok G => exact ⟨some G, by simp only [Tik.setRegs, h]; rfl, by simp only [Tik.setRegs, h]⟩
  refine ⟨rfl, rfl, rfl, rfl, ?_, ?_, ?_⟩
  · intro a
    obtain ⟨r, h, -⟩ := hset a
    rw [h]
    rfl
  · intro D Z
    have h := tik_fit_unregularized (tikDecShape) s.reset rfl D Z
    change (s.reset.fitDec D Z).1.reg = none at h
    generalize (s.reset.fitDec D Z).1 = t at h ⊢
    unfold Tik.solveDec
    rw [h]
    cases t.data with
    | none => rfl
    | some d => rfl
  · intro a D Z
    obtain ⟨r, h, h'⟩ := hset a
    rw [h, h']
    exact tik_fit_anew (tikDecShape) s.method s.pre none r D Z

/-- A solver that was fitted, reset and fitted again with other data has the state of a new one. -/
example :
    let svd : Mat ℚ → Except Err (Svd ℚ) := fun _ => .ok ⟨⟨1, 1, [[1]]⟩, [2], ⟨1, 1, [[1]]⟩⟩
    let old : L2 ℚ ℚ := ⟨some 3, some (⟨1, 1, [[1]]⟩, ⟨1, 1, [[5]]⟩), some ⟨[9], ⟨1, 1, [[9]]⟩, ⟨1, 1, [[9]]⟩⟩⟩
    ((old.reset.setReg (some 1)).1.fit svd (.mat ⟨1, 1, [[2]]⟩) (.mat ⟨1, 1, [[4]]⟩)).2 = .ok () ∧
    ((old.reset.setReg (some 1)).1.fit svd (.mat ⟨1, 1, [[2]]⟩) (.mat ⟨1, 1, [[4]]⟩)).1.solve =
      .ok ⟨1, 1, [[8 / 5]]⟩ := by
  refine ⟨by decide +kernel, by decide +kernel⟩

end

end Opinf
