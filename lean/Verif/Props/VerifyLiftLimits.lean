import Verif.Props.VerifyLiftQuad

/-!
# C93: what `verify()` of a lifting map does not establish

* `lift_ddts()` is only compared for the given states and relatively to all lifted variables, so that a wrong
  derivative of a small variable is accepted for every tolerance (`C93_wrong_accepted`).
* On a coarse mesh correct lifting maps are refused (`C93_coarse_refused`, as the documentation says).
* Polynomial lifting maps without the order 1 are refused for states they cannot recover (`C93_even_orders`).
-/

namespace Opinf

open List

variable {K : Type}

/-! ### Polynomial lifting maps -/

/-- C93: a polynomial lifting map with the order 1 recovers all states for which the powers are finite. -/
theorem C93_polynomial_recovers [Field K] [LinearOrder K] [IsStrictOrderedRing K] (pw : PowFn K)
    (h1 : pw.FirstPower) (orders : List ℚ) (ho : (1 : ℚ) ∈ orders) (k : Nat) (rows L : List (List K))
    (h : polyLift pw orders rows = .ok L) : (polyLifter pw orders).Recovers (.mat k rows) (.mat k L) := by
  refine ⟨?_, ⟨k, rfl, rfl⟩, .mat k rows, ?_, sameDims_self _, (allClose_iff _ _).1 (allClose_self _)⟩
  · simp only [polyLifter, rowLifter, Snap.rowLists, Snap.withRows, h, Except.map]
  · simp only [polyLifter, rowLifter, Snap.rowLists, Snap.withRows, C41_polynomial_unlift pw h1 orders ho rows L h, Except.map]

/-- C93: without the order 1 and with an even first nonzero order, a negative entry that is not negligible is not
recovered, and the call is refused with VerificationError, whatever `t` and `tol`. -/
theorem C93_even_orders (sqrt : ℝ → ℝ) (tol : ℝ) (t : Option (DdtVal ℝ)) (orders : List ℚ) (h1 : (1 : ℚ) ∉ orders)
    (m : ℤ) (hm : m ≠ 0) (hp : orders.find? (· ≠ 0) = some ((2 * m : ℤ) : ℚ)) (k : Nat) (rows L : List (List ℝ))
    (h : polyLift realPow orders rows = .ok L) {row : List ℝ} (hr : row ∈ rows) {q : ℝ} (hq : q ∈ row)
    (hneg : q ≤ -(1 / 10 ^ 8)) :
    (polyLifter realPow orders).verify sqrt tol t (.mat k rows) = .error .verification := by
  refine C93_not_recovered sqrt tol (polyLifter realPow orders) t (L := .mat k L)
    (U := .mat k (rows.map (map (|·|)))) (k := k) ?_ rfl rfl ?_ ?_
  · simp only [polyLifter, rowLifter, Snap.rowLists, Snap.withRows, h, Except.map]
  · simp only [polyLifter, rowLifter, Snap.rowLists, Snap.withRows, C41_polynomial_unlift_abs orders h1 m hm hp rows L h, Except.map]
  · intro hn
    have hn : Forall₂ (Forall₂ NearTo) (rows.map (map (|·|))) rows := hn
    rw [forall₂_map_left_iff, forall₂_same] at hn
    have h2 := hn row hr
    rw [forall₂_map_left_iff, forall₂_same] at h2
    have h3 := h2 q hq
    simp only [NearTo] at h3
    have hq0 : q < 0 := lt_of_le_of_lt hneg (by norm_num)
    rw [abs_of_neg hq0, abs_of_pos (by linarith)] at h3
    norm_num at h3 hneg
    linarith

/-! ### A wrong derivative -/

/-- The quadratic lifting map with a mistake in `lift_ddts`: `(d, 3 q d)`. -/
def wrongI [Semiring K] : LiftI K :=
  rowLifter (fun Q => .ok (quadLift Q)) (fun Q D => (mulAll (Q.map (map (3 * ·))) D).map (D ++ ·)) quadUnlift

/-- C93, negation: whatever the tolerance, there are states that change in time for which the wrong lifting map is
accepted. -/
theorem C93_wrong_accepted [Field K] [LinearOrder K] [IsStrictOrderedRing K] {sqrt : K → K} (hs : SquareRoot sqrt)
    {tol : K} (htol : 0 < tol) :
    (wrongI (K := K)).verify sqrt tol (some (.arr [0, 1, 2])) (.mat 3 [[0, tol / 2, tol]]) = .ok () ∧
    ddtCall (.mat 3 [[0, tol / 2, tol]]) [.arr [0, 1, 2]] [] = .ok (.mat 3 [[tol / 2, tol / 2, tol / 2]]) ∧
    (wrongI (K := K)).liftDdts (.mat 3 [[0, tol / 2, tol]]) (.mat 3 [[tol / 2, tol / 2, tol / 2]]) ≠
      (quadLifter (K := K)).liftDdts (.mat 3 [[0, tol / 2, tol]]) (.mat 3 [[tol / 2, tol / 2, tol / 2]]) := by
  obtain ⟨e, he⟩ : ∃ e, e = tol / 2 := ⟨_, rfl⟩
  have htol' : tol = 2 * e := by rw [he]; ring
  have hpos : 0 < e := by rw [he]; linarith
  rw [← he, htol']
  have hgrad : ∀ f0 f1 f2 : K, gradRow [0, 1, 2] [f0, f1, f2] =
      .ok [-(3 / 2) * f0 + 2 * f1 - f2 / 2, (f2 - f0) / 2, f0 / 2 - 2 * f1 + 3 / 2 * f2] := by
    intro f0 f1 f2
    simp only [gradRow, gradFirst, gradTail, gradInterior, gradLast]
    norm_num
    refine ⟨?_, ?_, ?_⟩ <;> ring
  have hddt : ∀ rows : List (List K), ∀ ds, rows.mapM (gradRow [0, 1, 2]) = .ok ds →
      ddtCall (.mat 3 rows) [.arr [0, 1, 2]] [] = .ok (.mat 3 ds) := by
    intro rows ds h
    change (ddtNonuniform [0, 1, 2] ⟨rows.length, 3, rows⟩).bind (fun M => .ok (Snap.mat M.ncols M.rows)) = _
    have : ¬ (3 ≠ ([0, 1, 2] : List K).length) := by simp
    simp only [ddtNonuniform, if_neg this, h, bind, Except.bind, pure, Except.pure]
  have hD : ddtCall (.mat 3 [[0, e, 2 * e]]) [.arr [0, 1, 2]] [] = .ok (.mat 3 [[e, e, e]]) := by
    apply hddt
    simp only [mapM_cons, mapM_nil, hgrad, bind, Except.bind, pure, Except.pure]
    congr 3
    · ring
    · congr 1
      · ring
      · congr 1
        ring
  have hw : (wrongI (K := K)).liftDdts (.mat 3 [[0, e, 2 * e]]) (.mat 3 [[e, e, e]]) =
      .ok (.mat 3 [[e, e, e], [0, 3 * e ^ 2, 6 * e ^ 2]]) := by
    simp only [wrongI, rowLifter, Snap.rowLists, Snap.withRows, mulAll, sameShape, map_cons, map_nil, length_cons, length_nil, beq_self_eq_true,
      if_true, Except.map, zipWith_cons_cons, zipWith_nil_left, singleton_append, cons_append, nil_append]
    have h1 : 3 * 0 * e = 0 := by ring
    have h2 : 3 * e * e = 3 * e ^ 2 := by ring
    have h3 : 3 * (2 * e) * e = 6 * e ^ 2 := by ring
    rw [h1, h2, h3]
  refine ⟨?_, hD, ?_⟩
  · rw [C93_accepted_iff hs (by linarith)]
    refine ⟨.mat 3 [[0, e, 2 * e], [0, e ^ 2, 4 * e ^ 2]], ?_, .inr ⟨⟨.mat 3 [[0, e, 2 * e],
      [0, 3 * e ^ 2, 12 * e ^ 2]], ?_⟩, .arr [0, 1, 2], rfl, .mat 3 [[e, e, e]],
      .mat 3 [[e, e, e], [0, 3 * e ^ 2, 6 * e ^ 2]], .mat 3 [[e, e, e], [0, 2 * e ^ 2, 4 * e ^ 2]], hD, hw, rfl, ?_,
      .mat 3 [[0, 0, 0], [0, e ^ 2, 2 * e ^ 2]], ?_, ?_⟩⟩
    · have := quad_recovers 3 [[0, e, 2 * e]]
      have e1 : quadLift [[0, e, 2 * e]] = [[0, e, 2 * e], [0, e ^ 2, 4 * e ^ 2]] := by
        simp only [quadLift, map_cons, map_nil, singleton_append]
        congr 3
        · ring
        · congr 2
          ring
      rw [e1] at this
      exact this
    · simp only [wrongI, rowLifter, Snap.rowLists, Snap.withRows, mulAll, sameShape, map_cons, map_nil, length_cons, length_nil, beq_self_eq_true,
        if_true, Except.map, zipWith_cons_cons, zipWith_nil_left, singleton_append, cons_append, nil_append]
      have h1 : (3 * 0 * 0 : K) = 0 := by ring
      have h2 : 3 * e * e = 3 * e ^ 2 := by ring
      have h3 : 3 * (2 * e) * (2 * e) = 12 * e ^ 2 := by ring
      rw [h1, h2, h3]
    · apply hddt
      simp only [mapM_cons, mapM_nil, hgrad, bind, Except.bind, pure, Except.pure]
      congr 2
      · congr 1
        · ring
        · congr 1
          · ring
          · congr 1
            ring
      · congr 2
        · ring
        · congr 1
          · ring
          · congr 1
            ring
    · simp only [Snap.minus, length_cons, length_nil, and_self, if_true, zipWith_cons_cons, zipWith_nil_left, vsub]
      congr 3
      · simp
      · congr 2
        · ring
        · congr 1
          · ring
          · congr 1
            ring
    · simp only [Snap.energy, map_cons, map_nil, sum_cons, sum_nil]
      have : 0 ≤ e ^ 4 := by positivity
      have : 0 ≤ e ^ 6 := by positivity
      nlinarith
  · rw [hw, quadDdts_mat (by simp)]
    simp only [map_cons, map_nil, zipWith_cons_cons, zipWith_nil_left, singleton_append, ne_eq, Except.ok.injEq,
      Snap.mat.injEq, true_and, cons.injEq, and_true, not_and]
    intro _ h
    nlinarith

/-! ### A coarse mesh -/

/-- C93: the quadratic lifting map is refused for the states `0, 1, 4` at the times `0, 1, 2` and the default
tolerance. -/
theorem C93_coarse_refused : (quadLifter (K := ℝ)).verify Real.sqrt (1 / 10 ^ 4) (some (.arr [0, 1, 2]))
    (.mat 3 [[0, 1, 4]]) = .error .verification := by
  have hs : SquareRoot Real.sqrt := fun x hx => ⟨Real.sqrt_nonneg x, Real.sq_sqrt hx⟩
  refine (C93_quadratic hs (by norm_num) (k := 3) rfl (le_refl _) (by simp)).2 ?_
  have hgrad : ∀ f0 f1 f2 : ℝ, gradOf [0, 1, 2] [f0, f1, f2] =
      [-(3 / 2) * f0 + 2 * f1 - f2 / 2, (f2 - f0) / 2, f0 / 2 - 2 * f1 + 3 / 2 * f2] := by
    intro f0 f1 f2
    simp only [gradOf, gradRow, gradFirst, gradTail, gradInterior, gradLast]
    norm_num
    refine ⟨?_, ?_, ?_⟩ <;> ring
  simp only [map_cons, map_nil, sum_cons, sum_nil, chainGap, hgrad, vsub, zipWith_cons_cons, zipWith_nil_left, sumSq]
  norm_num

/-! ### Examples -/

/-- The hypotheses of `C93_mesh_refinement`: the states `x` and `3 - x` on `[0, 1]`. -/
example : ∃ N : ℕ, ∀ k : ℕ, N ≤ k → (quadLifter (K := ℝ)).verify Real.sqrt (1 / 10 ^ 4)
    (some (.arr (equispaced 0 ((1 - 0) / ((k : ℝ) - 1)) k)))
    (.mat k ([fun x : ℝ => x, fun x : ℝ => 3 - x].map fun f => (equispaced 0 ((1 - 0) / ((k : ℝ) - 1)) k).map f)) = .ok () := by
  refine C93_mesh_refinement (a := 0) (b := 1) [fun x : ℝ => x, fun x : ℝ => 3 - x] (M := 1) (m := 1) one_pos one_pos
    (by norm_num) ?_ (g := fun x : ℝ => x) mem_cons_self ?_
  · intro f hf x _ y _
    simp only [mem_cons, not_mem_nil, or_false] at hf
    rcases hf with rfl | rfl
    · simp
    · have : (3 - y) - (3 - x) = -(y - x) := by ring
      simp only [this, abs_neg, one_mul, le_refl]
  · intro x _ y _ _
    simp

/-- The hypotheses of `C93_fine_mesh` and `C93_affine_states` over the rationals. -/
example : uniformDomain (equispaced (1 : ℚ) (1 / 2) 4) = .ok (1 / 2) ∧ StepsAtMost (2 * (1 / 2)) ([1, 2, 5 / 2, 3] : List ℚ) ∧
    ([0, 1, 3, 7] : List ℚ).Pairwise (· < ·) := by
  refine ⟨by decide +kernel, ?_, by decide +kernel⟩
  intro j hj
  match j with
  | 0 => decide +kernel
  | 1 => decide +kernel
  | 2 => decide +kernel
  | j + 3 => exact absurd hj (by simp)

/-- The square roots are not accepted for negative states: `orders = (2,)`. -/
example (sqrt : ℝ → ℝ) (tol : ℝ) : (polyLifter realPow [2]).verify sqrt tol none (.mat 1 [[-3]]) = .error .verification := by
  have h9 : realPow (-3) 2 = some 9 := by
    have : ¬ (((-3 : ℝ) = 0 ∧ (2 : ℚ) < 0) ∨ ((-3 : ℝ) < 0 ∧ (2 : ℚ).den ≠ 1)) := by norm_num
    rw [realPow, if_neg this]
    norm_num
  have h : polyLift realPow [2] [[-3]] = .ok [[9]] := by
    simp only [polyLift, powAll, mapM_cons, mapM_nil, h9, finite, bind, Except.bind, pure, Except.pure, concatRows]
    rfl
  refine C93_even_orders sqrt tol none [2] (by norm_num) 1 (by norm_num) (by norm_num) 1 _ _ h
    mem_cons_self mem_cons_self (by norm_num)

end Opinf
