import Verif.Props.VerifyDdtFd

/-!
# C97: `verify()` of nonuniform differences, and what `verify()` of estimators does not notice
-/

namespace Opinf

open List

variable {K : Type}

/-! ### Nonuniform differences -/

theorem testGrid_increasing [Field K] [LinearOrder K] [IsStrictOrderedRing K] (n : Nat) (dt : K) (h : 0 < dt) :
    (testGrid n dt).Pairwise (· < ·) := by
  rw [testGrid, pairwise_map]
  refine (pairwise_lt_range (n := n)).imp ?_
  intro a b hab
  have : (a : K) < b := by exact_mod_cast hab
  have := mul_lt_mul_of_pos_left this h
  linarith

theorem gradRow_ok [Field K] (t f : List K) (ht : 3 ≤ t.length) (hf : f.length = t.length) :
    ∃ d, gradRow t f = .ok d ∧ d.length = t.length := by
  match t, f, ht, hf with
  | t0 :: t1 :: t2 :: ts, f0 :: f1 :: f2 :: fs, _, hf =>
    refine ⟨_, rfl, ?_⟩
    have key : ∀ (ts fs : List K) (t0 t1 t2 f0 f1 f2 : K), fs.length = ts.length →
        (gradTail (t0 :: t1 :: t2 :: ts) (f0 :: f1 :: f2 :: fs)).length = ts.length + 2 := by
      intro ts
      induction ts with
      | nil => intro fs t0 t1 t2 f0 f1 f2 h; simp [gradTail]
      | cons t3 ts ih =>
        intro fs t0 t1 t2 f0 f1 f2 h
        cases fs with
        | nil => simp at h
        | cons f3 fs =>
          rw [gradTail, length_cons, ih fs t1 t2 t3 f1 f2 f3 (by simpa using h)]
          · simp
          · exact cons_ne_nil t3 ts
    simp only [length_cons] at hf ⊢
    rw [key ts fs t0 t1 t2 f0 f1 f2 (by omega)]

/-- The derivatives `numpy.gradient` computes for one row. -/
def gradRowOf [Field K] (t f : List K) : List K := match gradRow t f with
  | .ok d => d
  | .error _ => []

theorem ddtNonuniform_eq [Field K] (t : List K) (ht : 3 ≤ t.length) (A : Mat K) (hA : A.WF) (hc : A.ncols = t.length) :
    ddtNonuniform t A = .ok ⟨A.nrows, A.ncols, A.rows.map (gradRowOf t)⟩ ∧
      ∀ r ∈ A.rows, (gradRowOf t r).length = t.length := by
  have key : ∀ r ∈ A.rows, gradRow t r = .ok (gradRowOf t r) ∧ (gradRowOf t r).length = t.length := by
    intro r hr
    obtain ⟨d, hd, hl⟩ := gradRow_ok t r ht ((hA.2 r hr).trans hc)
    rw [gradRowOf, hd]
    exact ⟨rfl, hl⟩
  refine ⟨?_, fun r hr => (key r hr).2⟩
  rw [ddtNonuniform, if_neg (by simp [hc]), mapM_ok_of fun r hr => (key r hr).1]
  rfl

theorem nonuniformEst_eq [Field K] (t : List K) (ht : 3 ≤ t.length) (A : Mat K) (hA : A.WF) (hc : A.ncols = t.length)
    (U : Option (Mat K)) (hU : ∀ M ∈ U, M.ncols = A.ncols) :
    nonuniformEst ⟨t, ()⟩ A U = .ok (EstOut.tuple A ⟨A.nrows, A.ncols, A.rows.map (gradRowOf t)⟩ U) := by
  simp only [nonuniformEst, hc, ne_eq, not_true_eq_false, if_false, (misaligned_iff A U).2 hU, Bool.false_eq_true,
    (ddtNonuniform_eq t ht A hA hc).1, bind, Except.bind, pure, Except.pure]

section
variable [Field K] [LinearOrder K]

theorem nonuniform_errors (sqrt : K → K) (tests : List (DdtTest K)) (dt : K) (N : Nat) (hN : 3 ≤ N) :
    estErrors sqrt nonuniformEst tests ⟨testGrid N dt, ()⟩ = .ok (tests.map fun p : DdtTest K =>
      rowError sqrt (gradRowOf (testGrid N dt) ((testGrid N dt).map p.fn)) ((testGrid N dt).map p.deriv)) := by
  have hl : (testGrid N dt).length = N := by simp [testGrid]
  have h := nonuniformEst_eq (testGrid N dt) (hl.symm ▸ hN) (testStates tests (testGrid N dt)) (testStates_wf _ _) rfl none
    (by simp)
  have hD := (ddtNonuniform_eq (testGrid N dt) (hl.symm ▸ hN) (testStates tests (testGrid N dt)) (testStates_wf _ _)
    rfl).2
  have := C97_reported sqrt nonuniformEst tests ⟨testGrid N dt, ()⟩ _ _ h rfl (le_refl _)
    (by show 0 < (testGrid N dt).length; omega) ⟨by simp [testStates], by
      intro r hr
      obtain ⟨r', hr', rfl⟩ := mem_map.1 hr
      exact hD r' hr'⟩ rfl rfl
  rw [this]
  simp only [testStates, zipWith_map_left, map_map, Except.ok.injEq, take_length]
  have hz : ∀ (g : DdtTest K → DdtTest K → Val K) (l : List (DdtTest K)), zipWith g l l = l.map fun p => g p p := by
    intro g l
    induction l with
    | nil => rfl
    | cons a l ih => simp [ih]
  rw [hz]
  rfl

/-- **C97.** A `NonuniformFiniteDifferencer` with at least three times passes `verify()` and is left as it was; the report
compares the derivatives at all times. -/
theorem C97_nonuniform (sqrt : K → K) (tests : List (DdtTest K)) (t : List K) (ht : 3 ≤ t.length) (Q U : Mat K)
    (hQ : Q.WF) (hQk : Q.ncols = t.length) (hUk : U.ncols = t.length) :
    estVerify sqrt nonuniformEst tests ⟨t, ()⟩ Q U = (⟨t, ()⟩, .ok (tests.map fun p => testSteps.map fun dt =>
      rowError sqrt (gradRowOf (testGrid 1001 dt) ((testGrid 1001 dt).map p.fn)) ((testGrid 1001 dt).map p.deriv))) := by
  rw [estVerify, C97_accepted_iff]
  refine ⟨⟨_, _, _, _, _, nonuniformEst_eq t ht Q hQ hQk none (by simp), nonuniformEst_eq t ht Q hQ hQk (some U) ?_,
    rfl, rfl, rfl, rfl, ?_⟩, rfl, (testSteps.map fun dt => tests.map fun p : DdtTest K => rowError sqrt
      (gradRowOf (testGrid 1001 dt) ((testGrid 1001 dt).map p.fn)) ((testGrid 1001 dt).map p.deriv)), ?_, ?_⟩
  · rintro M hM
    cases hM
    exact hUk.trans hQk.symm
  · exact hUk.trans hQk.symm
  · exact (byTest_table (fun (dt : K) (p : DdtTest K) => rowError sqrt
      (gradRowOf (testGrid 1001 dt) ((testGrid 1001 dt).map p.fn)) ((testGrid 1001 dt).map p.deriv)) testSteps tests).symm
  · rw [forall₂_map_left_iff, forall₂_map_right_iff, forall₂_same]
    intro dt _
    exact nonuniform_errors sqrt tests dt 1001 (by norm_num)

/-- **C97.** For quadratic test functions the errors reported for nonuniform differences are zero. -/
theorem C97_nonuniform_exact [IsStrictOrderedRing K] {sqrt : K → K} (hs : SquareRoot sqrt) (P : Polynomial K)
    (hP : P.natDegree ≤ 2) (h1 : P.derivative.eval 1 ≠ 0) (dt : K) (hdt : 0 < dt) :
    rowError sqrt (gradRowOf (testGrid 1001 dt) ((testGrid 1001 dt).map P.eval)) ((testGrid 1001 dt).map P.derivative.eval)
      = .num 0 := by
  have h := gradRow_exact (testGrid 1001 dt) (testGrid_increasing 1001 dt hdt) (by simp [testGrid]) P hP
  rw [gradRowOf, h]
  simp only
  rw [testGrid_map, show 1001 = 1000 + 1 from rfl, samples_first]
  exact rowError_exact hs _ _ (by simpa using h1)

end

/-! ### Estimators that fail or cheat -/

/-- An estimator that wants the time step to be at least `1/50`, like one that divides by rounded time steps. -/
def coarseEst : EstFn ℚ Unit := fun e Q U => match stepOf e.times with
  | .error x => .error x
  | .ok dt => if dt < 1 / 50 then .error .value else .ok (EstOut.tuple Q Q U)

/-- **C97.** It is not true that `verify()` always restores the time domain: an estimator that raises for a small time step
keeps the time domain of that test problem. -/
theorem C97_not_restored : ¬ ∀ (sqrt : ℚ → ℚ) (est : EstFn ℚ Unit) (tests : List (DdtTest ℚ)) (grids : List (List ℚ))
    (e e' : Est ℚ Unit) (Q U : Mat ℚ) (y : Except Err (List (List (Val ℚ)))),
    estVerifyOn sqrt est tests grids e Q U = (e', y) → e' = e := by
  intro h
  have h1 : estVerifyOn id coarseEst [⟨fun t => t, fun _ => 1⟩] [testGrid 3 (1 / 10), testGrid 3 (1 / 100)]
      ⟨[0, 1, 2], ()⟩ ⟨1, 3, [[1, 2, 3]]⟩ ⟨1, 3, [[0, 0, 0]]⟩ =
      (⟨[1, 101 / 100, 102 / 100], ()⟩, .error .value) := by decide +kernel
  have := h _ _ _ _ _ _ _ _ _ h1
  revert this
  decide +kernel

/-- An estimator whose derivatives have no rows when inputs are given. -/
def cheatEst : EstFn K Unit := fun _ Q U => match U with
  | none => .ok (.pair Q Q)
  | some U => .ok (.triple Q ⟨0, 0, []⟩ (some U))

/-- **C97.** The derivatives returned together with inputs are not looked at: an estimator that returns an empty array of
derivatives whenever inputs are given passes `verify()` with all data. -/
theorem C97_input_derivatives_unchecked [Field K] [LinearOrder K] (sqrt : K → K) (tests : List (DdtTest K))
    (e : Est K Unit) (Q U : Mat K) (hU : U.ncols = Q.ncols) :
    (∃ R, estVerify sqrt cheatEst tests e Q U = (e, .ok R)) ∧
      cheatEst e Q (some U) = .ok (.triple Q ⟨0, 0, []⟩ (some U)) := by
  refine ⟨?_, rfl⟩
  have all : ∀ (N : Nat) (dt : K), 0 < N → ∃ v, estErrors sqrt cheatEst tests { e with times := testGrid N dt } = .ok v :=
    fun N dt hN => ⟨_, C97_reported sqrt cheatEst tests { e with times := testGrid N dt }
      (testStates tests (testGrid N dt)) (testStates tests (testGrid N dt)) rfl rfl (le_refl _)
      (by simpa [testStates, testGrid] using hN) (testStates_wf _ _) rfl rfl⟩
  have key := fun dt : K => all 1001 dt (by norm_num)
  choose g hg using key
  refine ⟨byTest tests.length (testSteps.map g), (C97_accepted_iff sqrt cheatEst tests _ e e Q U _).2
    ⟨⟨Q, Q, Q, ⟨0, 0, []⟩, U, rfl, rfl, rfl, rfl, rfl, rfl, hU⟩, rfl, testSteps.map g, rfl, ?_⟩⟩
  rw [forall₂_map_left_iff, forall₂_map_right_iff, forall₂_same]
  exact fun dt _ => hg dt

/-! ### Examples -/

/-- The hypotheses of C97_uniform and C97_too_short. -/
example : estVerify Real.sqrt uniformEst ddtTests ⟨[0, 1, 2, 3, 4], .ord4⟩ ⟨1, 5, [[1, 2, 3, 4, 5]]⟩
    ⟨1, 5, [[0, 0, 0, 0, 0]]⟩ = (⟨[0, 1, 2, 3, 4], .ord4⟩, .ok (Scheme.ord4.report Real.sqrt ddtTests)) :=
  C97_uniform _ _ _ _ (by decide) (by decide) _ _ ⟨rfl, by simp⟩ ⟨rfl, by simp⟩ rfl rfl

example : estVerify Real.sqrt uniformEst ddtTests ⟨[0, 1, 2, 3], .ord4⟩ ⟨1, 4, [[1, 2, 3, 4]]⟩
    ⟨1, 4, [[0, 0, 0, 0]]⟩ = (⟨[0, 1, 2, 3], .ord4⟩, .error .value) :=
  C97_too_short _ _ _ _ (by decide) (by decide) _ _ rfl

/-- A verification that passes on a small grid. -/
example : estVerifyOn id uniformEst [⟨fun t => t ^ 2, fun t => 2 * t⟩] [testGrid 4 1] ⟨[0, 1, 2], .bwd2⟩
    ⟨1, 3, [[1, 5, 2]]⟩ ⟨1, 3, [[0, 0, 1]]⟩ = (⟨[0, 1, 2], .bwd2⟩, .ok [[.num ((4 ^ 2 + 4 ^ 2) / (2 ^ 2 + 4 ^ 2) : ℚ)]]) := by
  decide +kernel

/-- An estimator with mismatching shapes. -/
example : ∃ x, estVerifyOn id (fun (_ : Est ℚ Unit) Q _ => .ok (.pair Q Q)) [] [] ⟨[0, 1], ()⟩ ⟨1, 2, [[1, 2]]⟩
    ⟨1, 2, [[0, 0]]⟩ = (⟨[0, 1], ()⟩, .error x) := ⟨.verification, by decide +kernel⟩

end Opinf
