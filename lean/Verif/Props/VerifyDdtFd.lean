import Verif.Model.VerifyDdtTests
import Verif.Props.VerifyDdt
import Verif.Props.Post
import Mathlib.Tactic.ComputeDegree

/-!
# C97: `verify()` of the finite difference classes

The finite difference estimators pass as soon as their time domain is long enough. The reported errors are those of the
documented test only for schemes whose first estimate belongs to the first snapshot.
-/

namespace Opinf

open List

variable {K σ : Type}

/-! ### One row of a scheme -/

/-- The derivatives a scheme computes for one row of `k` snapshots. -/
def Scheme.rowDdt [Field K] [DecidableEq K] (s : Scheme) (dt : K) (k : Nat) (row : List K) : List K :=
  match s.run ⟨1, k, [row]⟩ dt none with
  | .ok x => x.2.1.rows.getD 0 []
  | .error _ => []

theorem run_rows [Field K] [DecidableEq K] (s : Scheme) (dt : K) (A : Mat K) (hA : A.WF)
    (hk : s.minSnapshots ≤ A.ncols) (U : Option (Mat K)) (hU : ∀ M ∈ U, M.WF ∧ M.ncols = A.ncols) :
    s.run A dt U = .ok (⟨A.nrows, s.width A.ncols, A.rows.map fun r => (r.drop s.first).take (s.width A.ncols)⟩,
      ⟨A.nrows, s.width A.ncols, A.rows.map (s.rowDdt dt A.ncols)⟩,
      U.map fun M => ⟨M.nrows, s.width A.ncols, M.rows.map fun r => (r.drop s.first).take (s.width A.ncols)⟩) := by
  obtain ⟨D, hD, hDw, hDr, hDc⟩ := run_aligned s dt A hA hk U hU
  rw [hD]
  have key : D.rows = A.rows.map (s.rowDdt dt A.ncols) := by
    cases ht : s.table with
    | some x =>
      obtain ⟨mode, c, den⟩ := x
      by_cases hlt : A.ncols < (scaled dt c den).length - 1
      · simp [Scheme.run, ht, finiteDifference, hlt] at hD
      · have h1 : ∀ row, s.rowDdt dt A.ncols row = fdLoop row (A.ncols - ((scaled dt c den).length - 1))
            (scaled dt c den) 0 (replicate (A.ncols - ((scaled dt c den).length - 1)) 0) := by
          intro row
          simp [Scheme.rowDdt, Scheme.run, ht, finiteDifference, hlt]
        simp only [Scheme.run, ht, finiteDifference, hlt, if_false, Except.ok.injEq, Prod.mk.injEq] at hD
        rw [← hD.2.1]
        exact map_congr_left fun row _ => (h1 row).symm
    | none =>
      cases hf : frontTable s.order with
      | none => simp [Scheme.run, ht, ddtUniform, hf, bind, Except.bind] at hD
      | some y =>
        obtain ⟨fr, den, ctr⟩ := y
        cases hc : ctr.table with
        | none => simp [Scheme.run, ht, ddtUniform, hf, hc, bind, Except.bind] at hD
        | some z =>
          obtain ⟨m, cc, cden⟩ := z
          by_cases hlt : A.ncols < s.order + 1
          · simp [Scheme.run, ht, ddtUniform, hf, hc, hlt, bind, Except.bind] at hD
          · have h1 : ∀ row, s.rowDdt dt A.ncols row =
                ddtUniformRow (fr.map fun c => scaled dt c den) (scaled dt cc cden) row := by
              intro row
              simp [Scheme.rowDdt, Scheme.run, ht, ddtUniform, hf, hc, hlt, bind, Except.bind, pure, Except.pure]
            simp only [Scheme.run, ht, ddtUniform, hf, hc, hlt, if_false, bind, Except.bind, pure, Except.pure,
              Except.ok.injEq, Prod.mk.injEq] at hD
            rw [← hD.2.1]
            exact map_congr_left fun row _ => (h1 row).symm
  obtain ⟨n, m, rows⟩ := D
  simp only at key hDr hDc
  rw [key, hDr, hDc]

theorem rowDdt_poly [Field K] [CharZero K] [DecidableEq K] (s : Scheme) (P : Polynomial K)
    (hP : P.natDegree ≤ s.docOrder) (t0 dt : K) (hdt : dt ≠ 0) (k : Nat) (hk : s.minSnapshots ≤ k) :
    s.rowDdt dt k (samples P.eval t0 dt 0 k) = samples P.derivative.eval t0 dt s.first (s.width k) := by
  have h := C31_exact_on_polynomials s [P] (by simpa using hP) t0 dt hdt k hk
  have h : s.run ⟨1, k, [samples P.eval t0 dt 0 k]⟩ dt none = _ := h
  rw [Scheme.rowDdt, h]
  rfl

theorem testGrid_map [Field K] (n : Nat) (dt : K) (f : K → K) : (testGrid n dt).map f = samples f 1 dt 0 n := by
  simp [testGrid, samples, mul_comm]

theorem testGrid_take [Field K] (n w : Nat) (hw : w ≤ n) (dt : K) (f : K → K) :
    ((testGrid n dt).take w).map f = samples f 1 dt 0 w := by
  rw [testGrid, ← map_take, take_range, Nat.min_eq_left hw]
  exact testGrid_map w dt f

theorem stepOf_grid [Field K] (n : Nat) (hn : 2 ≤ n) (dt : K) : stepOf (testGrid n dt) = .ok dt := by
  obtain ⟨m, rfl⟩ : ∃ m, n = m + 2 := ⟨n - 2, by omega⟩
  simp [testGrid, range_succ_eq_map, stepOf]

theorem width_le (s : Scheme) (k : Nat) : s.width k ≤ k := by
  rw [Scheme.width]
  split <;> omega

theorem order_bounds (s : Scheme) : s.minSnapshots ≤ 7 ∧ 1 ≤ s.docOrder ∧ s.docOrder ≤ 6 := by
  cases s <;> decide

theorem stepOf_ok [Sub K] (t : List K) (h : 2 ≤ t.length) : ∃ dt, stepOf t = .ok dt := by
  match t, h with
  | t0 :: t1 :: _, _ => exact ⟨_, rfl⟩

theorem misaligned_iff (Q : Mat K) (U : Option (Mat K)) : misaligned Q U = false ↔ ∀ M ∈ U, M.ncols = Q.ncols := by
  cases U <;> simp [misaligned]

theorem uniformEst_eq [Field K] [DecidableEq K] (t : List K) (s : Scheme) (dt : K) (ht : stepOf t = .ok dt) (A : Mat K)
    (hA : A.WF) (hk : s.minSnapshots ≤ A.ncols) (U : Option (Mat K)) (hU : ∀ M ∈ U, M.WF ∧ M.ncols = A.ncols) :
    uniformEst ⟨t, s⟩ A U = .ok (EstOut.tuple
      ⟨A.nrows, s.width A.ncols, A.rows.map fun r => (r.drop s.first).take (s.width A.ncols)⟩
      ⟨A.nrows, s.width A.ncols, A.rows.map (s.rowDdt dt A.ncols)⟩
      (U.map fun M => ⟨M.nrows, s.width A.ncols, M.rows.map fun r => (r.drop s.first).take (s.width A.ncols)⟩)) := by
  have hm : misaligned A U = false := (misaligned_iff A U).2 fun M h => (hU M h).2
  simp only [uniformEst, hm, ht, Bool.false_eq_true, if_false, bind, Except.bind, run_rows s dt A hA hk U hU, pure,
    Except.pure]

theorem testStates_wf (tests : List (DdtTest K)) (t : List K) : (testStates tests t).WF := by
  refine ⟨by simp [testStates], ?_⟩
  intro r hr
  obtain ⟨p, _, rfl⟩ := mem_map.1 hr
  simp [testStates]

section
variable [Field K] [LinearOrder K]

theorem uniform_errors (sqrt : K → K) (tests : List (DdtTest K)) (s : Scheme) (dt : K) (N : Nat) (hN : 8 ≤ N) :
    estErrors sqrt uniformEst tests ⟨testGrid N dt, s⟩ = .ok (tests.map fun p : DdtTest K =>
      rowError sqrt (s.rowDdt dt N (samples p.fn 1 dt 0 N)) (samples p.deriv 1 dt 0 (s.width N))) := by
  obtain ⟨hb1, hb2, hb3⟩ := order_bounds s
  have hw : 0 < s.width N := by
    rw [Scheme.width]
    split <;> omega
  have hl : (testGrid N dt).length = N := by simp [testGrid]
  have hc : (testStates tests (testGrid N dt)).ncols = N := hl
  have hr : (testStates tests (testGrid N dt)).nrows = tests.length := rfl
  have h := uniformEst_eq (testGrid N dt) s dt (stepOf_grid N (by omega) dt)
    (testStates tests (testGrid N dt)) (testStates_wf _ _) (by rw [hc]; omega) none (by simp)
  obtain ⟨D, hD, hDw, hDr, hDc⟩ := run_aligned s dt (testStates tests (testGrid N dt)) (testStates_wf _ _)
    (by rw [hc]; omega) none (by simp)
  rw [run_rows s dt (testStates tests (testGrid N dt)) (testStates_wf _ _) (by rw [hc]; omega) none (by simp)] at hD
  simp only [Except.ok.injEq, Prod.mk.injEq] at hD
  rw [← hD.2.1] at hDw
  simp only [hc] at h hDw
  have := C97_reported sqrt uniformEst tests ⟨testGrid N dt, s⟩ _ _ h rfl
    (by rw [hl]; exact width_le s N) hw hDw rfl rfl
  rw [this]
  simp only [testGrid_take N _ (width_le s N), testStates, zipWith_map_left, map_map, Except.ok.injEq]
  have hz : ∀ (g : DdtTest K → DdtTest K → Val K) (l : List (DdtTest K)), zipWith g l l = l.map fun p => g p p := by
    intro g l
    induction l with
    | nil => rfl
    | cons a l ih => simp [ih]
  rw [hz]
  apply map_congr_left
  intro p _
  rw [Function.comp_apply, testGrid_map]

/-- The errors reported for a scheme: for every test problem and time step, the derivatives of the test function
computed by the scheme against the true derivatives at the first times. -/
def Scheme.report (sqrt : K → K) (s : Scheme) (tests : List (DdtTest K)) : List (List (Val K)) :=
  tests.map fun p => testSteps.map fun dt =>
    rowError sqrt (s.rowDdt dt 1001 (samples p.fn 1 dt 0 1001)) (samples p.deriv 1 dt 0 (s.width 1001))

/-- **C97.** A `UniformFiniteDifferencer` whose time domain has enough entries for its scheme passes `verify()`, and is
left as it was. -/
theorem C97_uniform (sqrt : K → K) (tests : List (DdtTest K)) (t : List K) (s : Scheme) (ht : 2 ≤ t.length)
    (hk : s.minSnapshots ≤ t.length) (Q U : Mat K) (hQ : Q.WF) (hU : U.WF) (hQk : Q.ncols = t.length)
    (hUk : U.ncols = t.length) :
    estVerify sqrt uniformEst tests ⟨t, s⟩ Q U = (⟨t, s⟩, .ok (s.report sqrt tests)) := by
  obtain ⟨dt, hdt⟩ := stepOf_ok t ht
  have hk' : s.minSnapshots ≤ Q.ncols := hQk ▸ hk
  rw [estVerify, C97_accepted_iff]
  refine ⟨⟨_, _, _, _, _, uniformEst_eq t s dt hdt Q hQ hk' none (by simp),
    uniformEst_eq t s dt hdt Q hQ hk' (some U) ?_, rfl, rfl, rfl, rfl, rfl⟩, rfl,
    (testSteps.map fun dt => tests.map fun p : DdtTest K =>
      rowError sqrt (s.rowDdt dt 1001 (samples p.fn 1 dt 0 1001)) (samples p.deriv 1 dt 0 (s.width 1001))), ?_, ?_⟩
  · rintro M hM
    cases hM
    exact ⟨hU, hUk.trans hQk.symm⟩
  · exact (byTest_table (fun (dt : K) (p : DdtTest K) => rowError sqrt (s.rowDdt dt 1001 (samples p.fn 1 dt 0 1001))
      (samples p.deriv 1 dt 0 (s.width 1001))) testSteps tests).symm
  · rw [forall₂_map_left_iff, forall₂_map_right_iff, forall₂_same]
    intro dt _
    exact uniform_errors sqrt tests s dt 1001 (by norm_num)

/-- **C97.** With a time domain that is too short for the scheme, `verify()` raises `ValueError`, and the estimator is
left as it was. -/
theorem C97_too_short (sqrt : K → K) (tests : List (DdtTest K)) (t : List K) (s : Scheme) (ht : 2 ≤ t.length)
    (hk : t.length < s.minSnapshots) (Q U : Mat K) (hQk : Q.ncols = t.length) :
    estVerify sqrt uniformEst tests ⟨t, s⟩ Q U = (⟨t, s⟩, .error .value) := by
  obtain ⟨dt, hdt⟩ := stepOf_ok t ht
  have h : s.run Q dt none = .error .value := (C31_too_few_snapshots s dt Q).2 (hQk ▸ hk)
  have h1 : estShapes uniformEst ⟨t, s⟩ Q U = .error .value := by
    simp [estShapes, uniformEst, misaligned, hdt, h, bind, Except.bind]
  simp only [estVerify, estVerifyOn, h1]

end

/-- **C97, the time domains.** `verify()` uses twelve time domains of 1001 points, which start at 1 and have the
steps `0.1, 0.01, ..., 1e-12`, in this order. -/
theorem C97_grids [Field K] [LinearOrder K] (sqrt : K → K) (est : EstFn K σ) (tests : List (DdtTest K)) (e : Est K σ)
    (Q U : Mat K) : ∃ grids : List (List K), estVerify sqrt est tests e Q U = estVerifyOn sqrt est tests grids e Q U ∧
      grids.length = 12 ∧ ∀ i < 12, ∃ g, grids[i]? = some g ∧ g.length = 1001 ∧
        ∀ j : Nat, j < 1001 → g[j]? = some (1 + (1 / 10 : K) ^ (i + 1) * (j : K)) := by
  refine ⟨testSteps.map (testGrid 1001), rfl, by simp [testSteps], ?_⟩
  intro i hi
  refine ⟨testGrid 1001 ((1 / 10) ^ (i + 1)), ?_, by simp [testGrid], ?_⟩
  · simp [testSteps, getElem?_map, getElem?_range, hi]
  · intro j hj
    simp [testGrid, getElem?_map, getElem?_range, hj]

/-! ### Which errors are reported -/

theorem samples_first [Semiring K] (f : K → K) (t0 dt : K) (a w : Nat) :
    samples f t0 dt a (w + 1) = f (t0 + (a : K) * dt) :: samples f t0 dt (a + 1) w := by
  simp only [samples, range_succ_eq_map, map_cons, map_map, Nat.add_zero]
  congr 1
  apply map_congr_left
  intro j _
  simp only [Function.comp_apply]
  congr 4
  omega

theorem report_getElem? [Field K] [LinearOrder K] (sqrt : K → K) (s : Scheme) (tests : List (DdtTest K)) (i : Nat)
    (p : DdtTest K) (h : tests[i]? = some p) : (s.report sqrt tests)[i]? = some (testSteps.map fun dt =>
      rowError sqrt (s.rowDdt dt 1001 (samples p.fn 1 dt 0 1001)) (samples p.deriv 1 dt 0 (s.width 1001))) := by
  rw [Scheme.report, getElem?_map, h]
  rfl

theorem width_pos (s : Scheme) : ∃ w, s.width 1001 = w + 1 := by
  obtain ⟨-, -, h⟩ := order_bounds s
  rw [Scheme.width]
  split
  · exact ⟨1000, rfl⟩
  · exact ⟨1000 - s.docOrder, by omega⟩

section
variable [Field K] [LinearOrder K] [IsStrictOrderedRing K]

theorem sqrt_pos_of {sqrt : K → K} (hs : SquareRoot sqrt) {x : K} (hx : 0 < x) : 0 < sqrt x := by
  obtain ⟨h1, h2⟩ := hs x hx.le
  rcases h1.lt_or_eq with h | h
  · exact h
  · rw [← h] at h2
    simp at h2
    exact absurd h2 hx.ne

theorem sumSq_cons_pos (x : K) (xs : List K) (hx : x ≠ 0) : 0 < sumSq (x :: xs) := by
  have h1 : sumSq (x :: xs) = x ^ 2 + sumSq xs := by simp [sumSq]
  have h2 : 0 < x ^ 2 := by positivity
  have h3 := sumSq_nonneg xs
  rw [h1]
  linarith

theorem rowError_exact {sqrt : K → K} (hs : SquareRoot sqrt) (x : K) (xs : List K) (hx : x ≠ 0) :
    rowError sqrt (x :: xs) (x :: xs) = .num 0 := by
  have h0 : ∀ l : List K, sumSq (vsub l l) = 0 := by
    intro l
    induction l with
    | nil => simp [vsub, sumSq]
    | cons a l ih => simpa [vsub, sumSq] using ih
  obtain ⟨h1, h2⟩ := hs 0 le_rfl
  have h3 : sqrt (0 : K) = 0 := by simpa using h2
  rw [rowError, h0, h3, ratio, if_neg (sqrt_pos_of hs (sumSq_cons_pos x xs hx)).ne', zero_div]

theorem rowError_wrong {sqrt : K → K} (hs : SquareRoot sqrt) (x y : K) (xs ys : List K) (hy : y ≠ 0) (hxy : x ≠ y) :
    ∃ v, 0 < v ∧ rowError sqrt (x :: xs) (y :: ys) = .num v := by
  have h1 := sqrt_pos_of hs (sumSq_cons_pos y ys hy)
  have h2 : 0 < sqrt (sumSq (vsub (x :: xs) (y :: ys))) := sqrt_pos_of hs (sumSq_cons_pos _ _ (sub_ne_zero.2 hxy))
  exact ⟨_, div_pos h2 h1, by rw [rowError, ratio, if_neg h1.ne']⟩

theorem testSteps_pos (dt : K) (h : dt ∈ (testSteps : List K)) : 0 < dt := by
  obtain ⟨i, _, rfl⟩ := mem_map.1 h
  positivity

theorem testSteps_length : (testSteps : List K).length = 12 := by simp [testSteps]

/-- **C97.** For a scheme whose first estimate belongs to the first snapshot, `verify()` reports the error zero for every
test function that is a polynomial of degree at most the order of the scheme. -/
theorem C97_exact_reported {sqrt : K → K} (hs : SquareRoot sqrt) (s : Scheme) (h0 : s.first = 0)
    (tests : List (DdtTest K)) (i : Nat) (P : Polynomial K) (hP : P.natDegree ≤ s.docOrder)
    (h1 : P.derivative.eval 1 ≠ 0) (hi : tests[i]? = some ⟨P.eval, P.derivative.eval⟩) :
    (s.report sqrt tests)[i]? = some (replicate 12 (.num 0)) := by
  rw [report_getElem? sqrt s tests i _ hi, Option.some.injEq, ← testSteps_length (K := K), ← map_const']
  apply map_congr_left
  intro dt hdt
  obtain ⟨w, hw⟩ := width_pos s
  have hb := (order_bounds s).1
  rw [rowDdt_poly s P hP 1 dt (testSteps_pos dt hdt).ne' 1001 (by omega), h0, hw, samples_first]
  exact rowError_exact hs _ _ (by simpa using h1)

/-- **C97.** The reported error is zero for every scheme and every test function `a + b t` with `b ≠ 0`. -/
theorem C97_linear_reported {sqrt : K → K} (hs : SquareRoot sqrt) (s : Scheme) (tests : List (DdtTest K)) (i : Nat)
    (a b : K) (hb : b ≠ 0) (hi : tests[i]? = some ⟨fun t => a + b * t, fun _ => b⟩) :
    (s.report sqrt tests)[i]? = some (replicate 12 (.num 0)) := by
  obtain ⟨P, hP⟩ : ∃ P : Polynomial K, P = Polynomial.C b * Polynomial.X + Polynomial.C a := ⟨_, rfl⟩
  have hd : P.natDegree ≤ s.docOrder := by
    rw [hP]
    exact Polynomial.natDegree_linear_le.trans (order_bounds s).2.1
  have e1 : P.eval = fun t => a + b * t := by
    funext t
    simp [hP, add_comm]
  have e2 : P.derivative.eval = fun _ => b := by
    funext t
    simp [hP]
  rw [report_getElem? sqrt s tests i _ hi, Option.some.injEq, ← testSteps_length (K := K), ← map_const']
  apply map_congr_left
  intro dt hdt
  obtain ⟨w, hw⟩ := width_pos s
  have hm := (order_bounds s).1
  have h := rowDdt_poly s P hd 1 dt (testSteps_pos dt hdt).ne' 1001 (by omega)
  rw [e1, e2] at h
  have h2 : samples (fun _ : K => b) 1 dt s.first (s.width 1001) = samples (fun _ : K => b) 1 dt 0 (s.width 1001) := by
    simp [samples]
  rw [h, h2, hw, samples_first]
  exact rowError_exact hs _ _ hb

/-- **C97.** For every scheme whose first estimate does not belong to the first snapshot, the reported error is positive
for every polynomial test function whose derivative takes its value at the first time nowhere later, although the estimates
are the exact derivatives at their times (C31). -/
theorem C97_misreported {sqrt : K → K} (hs : SquareRoot sqrt) (s : Scheme) (h0 : s.first ≠ 0)
    (tests : List (DdtTest K)) (i : Nat) (P : Polynomial K) (hP : P.natDegree ≤ s.docOrder)
    (h1 : P.derivative.eval 1 ≠ 0) (h2 : ∀ x, 1 < x → P.derivative.eval x ≠ P.derivative.eval 1)
    (hi : tests[i]? = some ⟨P.eval, P.derivative.eval⟩) :
    ∃ l, (s.report sqrt tests)[i]? = some l ∧ l.length = 12 ∧ ∀ v ∈ l, ∃ x, 0 < x ∧ v = .num x := by
  refine ⟨_, report_getElem? sqrt s tests i _ hi, by simp [testSteps_length], ?_⟩
  intro v hv
  obtain ⟨dt, hdt, rfl⟩ := mem_map.1 hv
  obtain ⟨w, hw⟩ := width_pos s
  have hb := (order_bounds s).1
  have hpos := testSteps_pos dt hdt
  simp only
  rw [rowDdt_poly s P hP 1 dt hpos.ne' 1001 (by omega), hw, samples_first, samples_first]
  refine rowError_wrong hs _ _ _ _ (by simpa using h1) ?_
  have : (1 : K) < 1 + (s.first : K) * dt := by
    have : (0 : K) < s.first := by exact_mod_cast Nat.pos_of_ne_zero h0
    have := mul_pos this hpos
    linarith
  simpa using h2 _ this

end

/-! ### The built-in test problems -/

/-- The second test problem, `t⁴ - t³/3`. -/
noncomputable def quarticTest : Polynomial ℝ := Polynomial.X ^ 4 - Polynomial.C (1 / 3) * Polynomial.X ^ 3

theorem quarticTest_facts : quarticTest.natDegree ≤ 4 ∧
    (⟨quarticTest.eval, quarticTest.derivative.eval⟩ : DdtTest ℝ) =
      ⟨fun t => t ^ 4 - t ^ 3 / 3, fun t => 4 * t ^ 3 - t ^ 2⟩ ∧ quarticTest.derivative.eval 1 ≠ 0 ∧
    ∀ x, 1 < x → quarticTest.derivative.eval x ≠ quarticTest.derivative.eval 1 := by
  have hd : ∀ x, quarticTest.derivative.eval x = 4 * x ^ 3 - x ^ 2 := by
    intro x
    simp [quarticTest]
    ring
  refine ⟨?_, ?_, ?_, ?_⟩
  · rw [quarticTest]
    compute_degree
  · congr 1
    · funext t
      simp [quarticTest]
      ring
    · funext t
      exact hd t
  · rw [hd]; norm_num
  · intro x hx
    rw [hd, hd]
    have h2 : 1 < x ^ 2 := one_lt_pow₀ hx (by norm_num)
    nlinarith [mul_pos (sub_pos.2 hx) (sub_pos.2 h2)]

/-- **C97.** The report for the built-in test problems: for `f(t) = t` zero for all 18 schemes; for `f(t) = t⁴ - t³/3` zero
for the forward and the mixed schemes of order at least four, and positive for the backward and central schemes of order
at least four, although these are exact as well. -/
theorem C97_builtin_report (s : Scheme) :
    (s.report Real.sqrt ddtTests)[0]? = some (replicate 12 (.num 0)) ∧
    (4 ≤ s.docOrder → s.first = 0 → (s.report Real.sqrt ddtTests)[1]? = some (replicate 12 (.num 0))) ∧
    (4 ≤ s.docOrder → s.first ≠ 0 → ∃ l, (s.report Real.sqrt ddtTests)[1]? = some l ∧ l.length = 12 ∧
      ∀ v ∈ l, ∃ x, 0 < x ∧ v = .num x) := by
  obtain ⟨h1, h2, h3, h4⟩ := quarticTest_facts
  have e1 : ddtTests[1]? = some ⟨quarticTest.eval, quarticTest.derivative.eval⟩ := by
    rw [h2]
    rfl
  refine ⟨?_, fun ho h0 => ?_, fun ho h0 => ?_⟩
  · refine C97_linear_reported C54_real_sqrt s ddtTests 0 0 1 one_ne_zero ?_
    simp [ddtTests]
  · exact C97_exact_reported C54_real_sqrt s h0 ddtTests 1 quarticTest (h1.trans ho) h3 e1
  · exact C97_misreported C54_real_sqrt s h0 ddtTests 1 quarticTest (h1.trans ho) h3 h4 e1

/-- **C97.** It is not true that `verify()` reports the error of the estimates: the fourth-order backward differences of
`t⁴ - t³/3` are exact, and none of the reported errors is zero. -/
theorem C97_report_not_errors :
    (∀ dt : ℝ, dt ≠ 0 → ∀ k, 4 ≤ k → Scheme.bwd4.rowDdt dt k (samples quarticTest.eval 1 dt 0 k) =
      samples quarticTest.derivative.eval 1 dt 4 (k - 4)) ∧
    ¬ ∃ l, (Scheme.bwd4.report Real.sqrt ddtTests)[1]? = some l ∧ Val.num 0 ∈ l := by
  refine ⟨fun dt hdt k hk => rowDdt_poly .bwd4 quarticTest quarticTest_facts.1 1 dt hdt k hk, ?_⟩
  rintro ⟨l, hl, h⟩
  obtain ⟨l', hl', -, h'⟩ := (C97_builtin_report .bwd4).2.2 (by decide) (by decide)
  rw [hl] at hl'
  cases hl'
  obtain ⟨x, hx, he⟩ := h' _ h
  injection he with he
  exact hx.ne he

end Opinf
