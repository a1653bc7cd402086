import Verif.Props.VerifyLift

/-!
# C93: `verify()` of the lifting maps of the library

For the quadratic lifting map the lifted states are always recovered, and the finite difference check compares the
estimates of the derivative of `q²` with `2 q` times the estimates of the derivative of `q`. On every grid these
agree for states that are affine in time; on a uniform grid the difference is bounded by the step, so that a
sufficiently fine mesh is accepted.
-/

namespace Opinf

open List

variable {K : Type}

/-- The estimates of the derivative for one row, `np.gradient(q, t, edge_order=2)`. -/
def gradOf [Field K] (t q : List K) : List K :=
  match gradRow t q with
  | .ok g => g
  | .error _ => []

/-- The difference between `2 q` times the estimates for `q` and the estimates for `q²`. -/
def chainGap [Field K] (t q : List K) : List K :=
  vsub (zipWith (· * ·) (q.map (2 * ·)) (gradOf t q)) (gradOf t (q.map (· ^ 2)))

section Outcome

variable [Field K] [LinearOrder K] [IsStrictOrderedRing K]

omit [LinearOrder K] [IsStrictOrderedRing K] in
theorem gradOf_eq {t q : List K} (hl : q.length = t.length) (h3 : 3 ≤ t.length) :
    gradRow t q = .ok (gradOf t q) ∧ (gradOf t q).length = t.length := by
  obtain ⟨g, hg⟩ := gradRow_defined hl h3
  have : gradOf t q = g := by rw [gradOf, hg]
  rw [this]
  exact ⟨hg, length_gradRow hl hg⟩

theorem ddt_grid {t : List K} {k : Nat} {rows : List (List K)} (hk : t.length = k) (h3 : 3 ≤ k)
    (hw : ∀ row ∈ rows, row.length = k) :
    ddtCall (.mat k rows) [.arr t] [] = .ok (.mat k (rows.map (gradOf t))) := by
  subst hk
  have hr : rows.mapM (gradRow t) = .ok (rows.map (gradOf t)) :=
    mapM_ok_of fun q hq => (gradOf_eq (hw q hq) h3).1
  change (ddtNonuniform t ⟨rows.length, t.length, rows⟩).bind (fun M => .ok (Snap.mat M.ncols M.rows)) = _
  simp only [ddtNonuniform, ne_eq, not_true_eq_false, if_false, hr, bind, Except.bind, pure, Except.pure]

omit [IsStrictOrderedRing K] in
theorem compareRel_outcome (sqrt : K → K) (tol : K) {E F G : Snap K} (h : E.minus F = .ok G) :
    compareRel sqrt tol E F = .ok () ∨ compareRel sqrt tol E F = .error .verification := by
  simp only [compareRel, h, bind, Except.bind]
  cases (ratio (G.norm sqrt) (F.norm sqrt)).exceeds tol
  · exact .inl rfl
  · exact .inr rfl

omit [LinearOrder K] [IsStrictOrderedRing K] in
theorem quadDdts_mat {k : Nat} {Q D : List (List K)} (h : Q.map length = D.map length) :
    (quadLifter (K := K)).liftDdts (.mat k Q) (.mat k D) =
      .ok (.mat k (D ++ zipWith (zipWith (· * ·)) (Q.map (map (2 * ·))) D)) := by
  have hs : sameShape (Q.map (map (2 * ·))) D = true := by
    simp only [sameShape, beq_iff_eq, ← h, map_map]
    exact map_congr_left fun r _ => by simp
  simp only [quadLifter, rowLifter, Snap.rowLists, Snap.withRows, quadLiftDdts, mulAll, hs, if_true, Except.map]

omit [LinearOrder K] [IsStrictOrderedRing K] in
theorem lengths_eq {k : Nat} {Q D : List (List K)} (hl : Q.length = D.length) (hQ : ∀ r ∈ Q, r.length = k)
    (hD : ∀ r ∈ D, r.length = k) : Q.map length = D.map length := by
  rw [map_congr_left hQ, map_congr_left hD, map_const', map_const', hl]

/-- The quadratic lifting map recovers every state array. -/
theorem quad_recovers (k : Nat) (rows : List (List K)) :
    (quadLifter (K := K)).Recovers (.mat k rows) (.mat k (quadLift rows)) := by
  refine ⟨rfl, ⟨k, rfl, rfl⟩, .mat k rows, ?_, sameDims_self _, (allClose_iff _ _).1 (allClose_self _)⟩
  simp only [quadLifter, rowLifter, Snap.rowLists, Snap.withRows, C41_quadratic_unlift, Except.map]

omit [LinearOrder K] [IsStrictOrderedRing K] in
theorem vsub_self (a : List K) : sumSq (vsub a a) = 0 := by
  have : vsub a a = replicate a.length 0 := by
    induction a with
    | nil => rfl
    | cons x a ih =>
      have : vsub (x :: a) (x :: a) = (x - x) :: vsub a a := rfl
      rw [this, ih, sub_self, length_cons, replicate_succ]
  rw [this, sumSq_replicate_zero]

/-- C93: `verify(states, t, tol)` of the quadratic lifting map accepts the states exactly if the differences
`2 q ddt(q) - ddt(q²)` are relatively small; otherwise it raises VerificationError. -/
theorem C93_quadratic {sqrt : K → K} (hs : SquareRoot sqrt) {tol : K} (ht : 0 ≤ tol) {t : List K} {k : Nat}
    {rows : List (List K)} (hk : t.length = k) (h3 : 3 ≤ k) (hw : ∀ row ∈ rows, row.length = k) :
    ((rows.map fun q => sumSq (chainGap t q)).sum ≤ tol ^ 2 * ((rows.map fun q => sumSq (gradOf t q)).sum +
        (rows.map fun q => sumSq (gradOf t (q.map (· ^ 2)))).sum) →
      (quadLifter (K := K)).verify sqrt tol (some (.arr t)) (.mat k rows) = .ok ()) ∧
    (¬ (rows.map fun q => sumSq (chainGap t q)).sum ≤ tol ^ 2 * ((rows.map fun q => sumSq (gradOf t q)).sum +
        (rows.map fun q => sumSq (gradOf t (q.map (· ^ 2)))).sum) →
      (quadLifter (K := K)).verify sqrt tol (some (.arr t)) (.mat k rows) = .error .verification) := by
  have hrec := quad_recovers k rows
  have hself := quadDdts_mat (k := k) (rfl : rows.map length = rows.map length)
  have hD := ddt_grid (rows := rows) hk h3 hw
  have hwD : ∀ r ∈ rows.map (gradOf t), r.length = k := by
    intro r hr
    obtain ⟨q, hq, rfl⟩ := mem_map.1 hr
    rw [(gradOf_eq ((hw q hq).trans hk.symm) (by omega)).2, hk]
  have hE := quadDdts_mat (k := k) (lengths_eq (by simp) hw hwD)
  have hwL : ∀ r ∈ quadLift rows, r.length = k := by
    intro r hr
    rcases mem_append.1 hr with hr | hr
    · exact hw r hr
    · obtain ⟨q, hq, rfl⟩ := mem_map.1 hr
      rw [length_map, hw q hq]
  have hF := ddt_grid hk h3 hwL
  have hFe : (quadLift rows).map (gradOf t) = rows.map (gradOf t) ++ rows.map fun q => gradOf t (q.map (· ^ 2)) := by
    rw [quadLift, map_append, map_map]
    rfl
  rw [hFe] at hF
  obtain ⟨D, rfl⟩ : ∃ D, D = rows.map (gradOf t) := ⟨_, rfl⟩
  have hG : (Snap.mat k (rows.map (gradOf t) ++ zipWith (zipWith (· * ·)) (rows.map (map (2 * ·)))
      (rows.map (gradOf t)))).minus
      (.mat k (rows.map (gradOf t) ++ rows.map fun q => gradOf t (q.map (· ^ 2)))) =
      .ok (.mat k (rows.map (fun q => vsub (gradOf t q) (gradOf t q)) ++ rows.map (chainGap t))) := by
    have hlen : (rows.map (gradOf t) ++ zipWith (zipWith (· * ·)) (rows.map (map (2 * ·)))
        (rows.map (gradOf t))).length = (rows.map (gradOf t) ++ rows.map fun q => gradOf t (q.map (· ^ 2))).length := by
      simp
    simp only [Snap.minus, hlen, and_self, if_true]
    congr 2
    rw [zipWith_append (by simp)]
    congr 1
    · rw [zipWith_map, zipWith_self]
    · rw [zipWith_map, zipWith_self, zipWith_map, zipWith_self]
      rfl
  have hrel : RelClose tol (.mat k (rows.map (gradOf t) ++ zipWith (zipWith (· * ·)) (rows.map (map (2 * ·)))
      (rows.map (gradOf t)))) (.mat k (rows.map (gradOf t) ++ rows.map fun q => gradOf t (q.map (· ^ 2)))) ↔
      (rows.map fun q => sumSq (chainGap t q)).sum ≤ tol ^ 2 * ((rows.map fun q => sumSq (gradOf t q)).sum +
        (rows.map fun q => sumSq (gradOf t (q.map (· ^ 2)))).sum) := by
    have e1 : (Snap.mat k (rows.map (fun q => vsub (gradOf t q) (gradOf t q)) ++ rows.map (chainGap t))).energy =
        (rows.map fun q => sumSq (chainGap t q)).sum := by
      change ((rows.map (fun q => vsub (gradOf t q) (gradOf t q)) ++ rows.map (chainGap t)).map sumSq).sum = _
      rw [map_append, sum_append, map_map, map_map]
      have : (rows.map (sumSq ∘ fun q => vsub (gradOf t q) (gradOf t q))).sum = 0 := by
        apply sum_eq_zero
        intro x hx
        obtain ⟨q, _, rfl⟩ := mem_map.1 hx
        exact vsub_self _
      rw [this, zero_add]
      rfl
    have e2 : (Snap.mat k (rows.map (gradOf t) ++ rows.map fun q => gradOf t (q.map (· ^ 2)))).energy =
        (rows.map fun q => sumSq (gradOf t q)).sum + (rows.map fun q => sumSq (gradOf t (q.map (· ^ 2)))).sum := by
      change ((rows.map (gradOf t) ++ rows.map fun q => gradOf t (q.map (· ^ 2))).map sumSq).sum = _
      rw [map_append, sum_append, map_map, map_map]
      rfl
    rw [← e1, ← e2]
    constructor
    · rintro ⟨G, h1, h2⟩
      rw [hG] at h1
      cases h1
      exact h2
    · exact fun h => ⟨_, hG, h⟩
  have hdims : sameDims (.mat k (rows.map (gradOf t) ++ zipWith (zipWith (· * ·)) (rows.map (map (2 * ·)))
      (rows.map (gradOf t)))) (.mat k (quadLift rows)) = true := by
    simp [sameDims, quadLift]
  have hv : (quadLifter (K := K)).verify sqrt tol (some (.arr t)) (.mat k rows) =
      compareRel sqrt tol (.mat k (rows.map (gradOf t) ++ zipWith (zipWith (· * ·)) (rows.map (map (2 * ·)))
        (rows.map (gradOf t)))) (.mat k (rows.map (gradOf t) ++ rows.map fun q => gradOf t (q.map (· ^ 2)))) := by
    simp only [LiftI.verify, (verifyUnlift_iff _ _ _).2 hrec, bind, Except.bind, LiftI.verifyLiftDdts, hself,
      LiftI.verifyEstimates, hD, hE, hdims, insist, if_true, hF]
  rw [hv, ← hrel]
  refine ⟨(compareRel_iff hs ht).2, fun h => ?_⟩
  rcases compareRel_outcome sqrt tol hG with h1 | h1
  · exact absurd ((compareRel_iff hs ht).1 h1) h
  · exact h1

end Outcome

/-! ### States that are affine in time -/

section Affine

variable [Field K] [LinearOrder K] [IsStrictOrderedRing K]

theorem gap_affine {t : List K} (ht : t.Pairwise (· < ·)) (h3 : 3 ≤ t.length) (a b : K) :
    sumSq (chainGap t (t.map fun x => a + b * x)) = 0 := by
  have h1 : gradOf t (t.map fun x => a + b * x) = t.map fun _ => b := by
    have e : (t.map fun x => a + b * x) = t.map (Polynomial.C a + Polynomial.C b * Polynomial.X).eval :=
      map_congr_left fun x _ => by simp
    have := gradRow_exact t ht h3 (Polynomial.C a + Polynomial.C b * Polynomial.X) (by
      refine (Polynomial.natDegree_add_le _ _).trans ?_
      refine max_le (by simp) ((Polynomial.natDegree_C_mul_le _ _).trans ?_)
      exact Polynomial.natDegree_X_le.trans (by omega))
    rw [gradOf, e, this]
    simp
  have h2 : gradOf t ((t.map fun x => a + b * x).map (· ^ 2)) = t.map fun x => 2 * b * (a + b * x) := by
    have e : ((t.map fun x => a + b * x).map (· ^ 2)) =
        t.map ((Polynomial.C a + Polynomial.C b * Polynomial.X) ^ 2).eval := by
      rw [map_map]
      exact map_congr_left fun x _ => by simp
    have := gradRow_exact t ht h3 ((Polynomial.C a + Polynomial.C b * Polynomial.X) ^ 2) (by
      refine Polynomial.natDegree_pow_le.trans ?_
      have : (Polynomial.C a + Polynomial.C b * Polynomial.X).natDegree ≤ 1 := by
        refine (Polynomial.natDegree_add_le _ _).trans ?_
        refine max_le (by simp) ((Polynomial.natDegree_C_mul_le _ _).trans ?_)
        exact Polynomial.natDegree_X_le
      omega)
    rw [gradOf, e, this]
    simp only
    apply map_congr_left
    intro x _
    simp [Polynomial.derivative_pow]
    ring
  rw [chainGap, h1, h2, map_map, zipWith_map, zipWith_self]
  have : (t.map fun x => ((fun x => 2 * x) ∘ fun x => a + b * x) x * b) = t.map fun x => 2 * b * (a + b * x) :=
    map_congr_left fun x _ => by simp only [Function.comp]; ring
  rw [this]
  exact vsub_self _

/-- C93: states that are affine in time are accepted for the quadratic lifting map, on every strictly increasing grid
with at least three points and for every tolerance. -/
theorem C93_affine_states {sqrt : K → K} (hs : SquareRoot sqrt) {tol : K} (htol : 0 ≤ tol) {t : List K}
    (ht : t.Pairwise (· < ·)) (h3 : 3 ≤ t.length) (lines : List (K × K)) :
    (quadLifter (K := K)).verify sqrt tol (some (.arr t))
      (.mat t.length (lines.map fun l => t.map fun x => l.1 + l.2 * x)) = .ok () := by
  have hw : ∀ row ∈ lines.map fun l => t.map fun x => l.1 + l.2 * x, row.length = t.length := by
    intro row hr
    obtain ⟨l, _, rfl⟩ := mem_map.1 hr
    rw [length_map]
  refine (C93_quadratic hs htol rfl h3 hw).1 ?_
  have : ((lines.map fun l => t.map fun x => l.1 + l.2 * x).map fun q => sumSq (chainGap t q)).sum = 0 := by
    apply sum_eq_zero
    intro x hx
    rw [map_map] at hx
    obtain ⟨l, _, rfl⟩ := mem_map.1 hx
    exact gap_affine ht h3 l.1 l.2
  rw [this]
  refine mul_nonneg (sq_nonneg _) (add_nonneg (sum_nonneg ?_) (sum_nonneg ?_))
  · intro x hx
    obtain ⟨q, _, rfl⟩ := mem_map.1 hx
    exact sumSq_nonneg _
  · intro x hx
    obtain ⟨q, _, rfl⟩ := mem_map.1 hx
    exact sumSq_nonneg _

end Affine

/-! ### Fine meshes -/

section Fine

variable [Field K] [LinearOrder K] [IsStrictOrderedRing K]

/-- The change of a row from one column to the next is at most `c`. -/
def StepsAtMost (c : K) (q : List K) : Prop := ∀ j, j + 1 < q.length → |q.getD (j + 1) 0 - q.getD j 0| ≤ c

theorem sq_between {x y b : K} (hx : 0 ≤ x) (hxb : x ≤ b) (hy : 0 ≤ y) (hyb : y ≤ b) : |x - y| ≤ b := by
  rw [abs_le]
  constructor <;> linarith

theorem sq_le_of_abs {x c : K} (h : |x| ≤ c) : x ^ 2 ≤ c ^ 2 := by
  rw [← sq_abs]
  exact pow_le_pow_left₀ (abs_nonneg _) h 2

/-- On a uniform grid the differences are bounded by the step. -/
theorem gap_bound {t q : List K} {h M : K} (hh : 0 < h) (hu : uniformDomain t = .ok h) (h3 : 3 ≤ t.length)
    (hl : q.length = t.length) (hq : StepsAtMost (M * h) q) (x : K) (hx : x ∈ chainGap t q) :
    |x| ≤ 2 * M ^ 2 * h := by
  have hl2 : (q.map (· ^ 2)).length = t.length := by rw [length_map, hl]
  have e1 : gradOf t q = ddtUniformRow [scaled h [-3, 4, -1] 2] (scaled h [-1, 0, 1] 2) q := by
    rw [gradOf, rows_agree hh.ne' hu hl h3]
  have e2 : gradOf t (q.map (· ^ 2)) = ddtUniformRow [scaled h [-3, 4, -1] 2] (scaled h [-1, 0, 1] 2)
      (q.map (· ^ 2)) := by
    rw [gradOf, rows_agree hh.ne' hu hl2 h3]
  obtain ⟨u1, u2, u3, u4⟩ := uniformRow_at (f := q) h (by omega)
  obtain ⟨v1, v2, v3, v4⟩ := uniformRow_at (f := q.map (· ^ 2)) h (by omega)
  rw [← e1] at u1 u2 u3 u4
  rw [← e2] at v1 v2 v3 v4
  have hsq : ∀ j, (q.map (· ^ 2)).getD j 0 = q.getD j 0 ^ 2 := by
    intro j
    simp only [getD_eq_getElem?_getD, getElem?_map]
    cases q[j]? <;> simp
  obtain ⟨j, hj, rfl⟩ := mem_iff_getElem.1 hx
  have hjk : j < t.length := by
    simp only [chainGap, vsub, length_zipWith, length_map] at hj
    omega
  have hentry : (chainGap t q)[j] = 2 * q.getD j 0 * (gradOf t q).getD j 0 - (gradOf t (q.map (· ^ 2))).getD j 0 := by
    have a1 : j < q.length := by omega
    have a2 : j < (gradOf t q).length := by omega
    have a3 : j < (gradOf t (q.map (· ^ 2))).length := by omega
    simp only [chainGap, vsub, getElem_zipWith, getElem_map, getD_eq_getElem?_getD, getElem?_eq_getElem a1,
      getElem?_eq_getElem a2, getElem?_eq_getElem a3, Option.getD_some]
  rw [hentry]
  have hb : ∀ i, i + 1 < t.length → (q.getD (i + 1) 0 - q.getD i 0) ^ 2 ≤ M ^ 2 * h ^ 2 := by
    intro i hi
    have := sq_le_of_abs (hq i (by omega))
    rwa [mul_pow] at this
  have hb2 : ∀ i, i + 2 < t.length → (q.getD (i + 2) 0 - q.getD i 0) ^ 2 ≤ 4 * (M ^ 2 * h ^ 2) := by
    intro i hi
    have h1 := hq i (by omega)
    have h2 := hq (i + 1) (by omega)
    have h3 : |q.getD (i + 2) 0 - q.getD i 0| ≤ 2 * (M * h) := by
      have e : q.getD (i + 2) 0 - q.getD i 0 =
          (q.getD (i + 1 + 1) 0 - q.getD (i + 1) 0) + (q.getD (i + 1) 0 - q.getD i 0) := by ring
      rw [e]
      exact (abs_add_le _ _).trans (by linarith)
    have := sq_le_of_abs h3
    calc _ ≤ _ := this
      _ = _ := by ring
  have final : ∀ y : K, |y| ≤ 4 * (M ^ 2 * h ^ 2) → |y / (2 * h)| ≤ 2 * M ^ 2 * h := by
    intro y hy
    have h2 : 0 < 2 * h := by linarith
    rw [abs_div, abs_of_pos h2, div_le_iff₀ h2]
    calc _ ≤ _ := hy
      _ = _ := by ring
  have hM : 0 ≤ M ^ 2 * h ^ 2 := by positivity
  by_cases h0 : j = 0
  · subst h0
    rw [u2, v2, hsq, hsq, hsq]
    have e : 2 * q.getD 0 0 * ((-3 * q.getD 0 0 + 4 * q.getD 1 0 - q.getD 2 0) / (2 * h)) -
        (-3 * q.getD 0 0 ^ 2 + 4 * q.getD 1 0 ^ 2 - q.getD 2 0 ^ 2) / (2 * h) =
        ((q.getD 2 0 - q.getD 0 0) ^ 2 - 4 * (q.getD 1 0 - q.getD 0 0) ^ 2) / (2 * h) := by ring
    rw [e]
    exact final _ (sq_between (sq_nonneg _) (hb2 0 (by omega)) (mul_nonneg (by norm_num) (sq_nonneg _))
      (by linarith [hb 0 (by omega)]))
  obtain ⟨i, rfl⟩ : ∃ i, j = i + 1 := ⟨j - 1, by omega⟩
  rcases Nat.lt_or_ge (i + 2) t.length with hi | hi
  · rw [u3 i (by omega), v3 i (by omega), hsq, hsq]
    have e : 2 * q.getD (i + 1) 0 * ((q.getD (i + 2) 0 - q.getD i 0) / (2 * h)) -
        (q.getD (i + 2) 0 ^ 2 - q.getD i 0 ^ 2) / (2 * h) =
        ((q.getD (i + 1) 0 - q.getD i 0) ^ 2 - (q.getD (i + 2) 0 - q.getD (i + 1) 0) ^ 2) / (2 * h) := by ring
    rw [e]
    exact final _ (sq_between (sq_nonneg _) (by linarith [hb i (by omega)]) (sq_nonneg _)
      (by linarith [hb (i + 1) (by omega)]))
  · obtain ⟨m, rfl⟩ : ∃ m, i = m + 1 := ⟨i - 1, by omega⟩
    rw [u4 m (by omega), v4 m (by omega), hsq, hsq, hsq]
    have e : 2 * q.getD (m + 2) 0 * ((q.getD m 0 - 4 * q.getD (m + 1) 0 + 3 * q.getD (m + 2) 0) / (2 * h)) -
        (q.getD m 0 ^ 2 - 4 * q.getD (m + 1) 0 ^ 2 + 3 * q.getD (m + 2) 0 ^ 2) / (2 * h) =
        (4 * (q.getD (m + 2) 0 - q.getD (m + 1) 0) ^ 2 - (q.getD (m + 2) 0 - q.getD m 0) ^ 2) / (2 * h) := by ring
    rw [e]
    exact final _ (sq_between (mul_nonneg (by norm_num) (sq_nonneg _)) (by linarith [hb (m + 1) (by omega)])
      (sq_nonneg _) (hb2 m (by omega)))

theorem sumSq_le {xs : List K} {c : K} (h : ∀ x ∈ xs, |x| ≤ c) : sumSq xs ≤ xs.length * c ^ 2 := by
  induction xs with
  | nil => simp [sumSq]
  | cons x xs ih =>
    have h1 := ih fun y hy => h y (mem_cons_of_mem _ hy)
    have h2 := sq_le_of_abs (h x mem_cons_self)
    have : sumSq (x :: xs) = x ^ 2 + sumSq xs := by simp [sumSq]
    rw [this, length_cons]
    push_cast
    linarith

theorem le_sumSq {xs : List K} {c : K} (hc : 0 ≤ c) (h : ∀ x ∈ xs, c ≤ |x|) : xs.length * c ^ 2 ≤ sumSq xs := by
  induction xs with
  | nil => simp [sumSq]
  | cons x xs ih =>
    have h1 := ih fun y hy => h y (mem_cons_of_mem _ hy)
    have h2 : c ^ 2 ≤ x ^ 2 := by
      rw [← sq_abs x]
      exact pow_le_pow_left₀ hc (h x mem_cons_self) 2
    have : sumSq (x :: xs) = x ^ 2 + sumSq xs := by simp [sumSq]
    rw [this, length_cons]
    push_cast
    linarith

theorem sum_map_le {α : Type} {l : List α} {f : α → K} {c : K} (h : ∀ a ∈ l, f a ≤ c) :
    (l.map f).sum ≤ l.length * c := by
  induction l with
  | nil => simp
  | cons a l ih =>
    have h1 := ih fun b hb => h b (mem_cons_of_mem _ hb)
    have h2 := h a mem_cons_self
    rw [map_cons, sum_cons, length_cons]
    push_cast
    linarith

theorem le_sum_map {α : Type} {l : List α} {f : α → K} (h0 : ∀ a ∈ l, 0 ≤ f a) {a : α} (ha : a ∈ l) :
    f a ≤ (l.map f).sum :=
  single_le_sum (by
    intro x hx
    obtain ⟨b, hb, rfl⟩ := mem_map.1 hx
    exact h0 b hb) _ (mem_map_of_mem ha)

/-- C93: on a uniform grid with step `h`, states that change by at most `M h` from one column to the next, and one
of whose variables changes by at least `m h`, are accepted if `12 n M⁴ h² ≤ tol² m²` (`n` variables). -/
theorem C93_fine_mesh {sqrt : K → K} (hs : SquareRoot sqrt) {tol : K} (htol : 0 ≤ tol) {t : List K} {h M m : K}
    (hh : 0 < h) (hm : 0 ≤ m) (hu : uniformDomain t = .ok h) (h3 : 3 ≤ t.length) {rows : List (List K)}
    (hw : ∀ row ∈ rows, row.length = t.length) (hM : ∀ row ∈ rows, StepsAtMost (M * h) row)
    {q : List K} (hq : q ∈ rows) (hinc : ∀ j, j + 1 < q.length → m * h ≤ q.getD (j + 1) 0 - q.getD j 0)
    (hfine : 12 * rows.length * M ^ 4 * h ^ 2 ≤ tol ^ 2 * m ^ 2) :
    (quadLifter (K := K)).verify sqrt tol (some (.arr t)) (.mat t.length rows) = .ok () := by
  refine (C93_quadratic hs htol rfl h3 hw).1 ?_
  have hup : (rows.map fun q => sumSq (chainGap t q)).sum ≤ rows.length * (t.length * (2 * M ^ 2 * h) ^ 2) := by
    apply sum_map_le
    intro r hr
    have hl : (chainGap t r).length = t.length := by
      have a1 := hw r hr
      have a2 := (gradOf_eq a1 h3).2
      have a3 := (gradOf_eq (q := r.map (· ^ 2)) (by rw [length_map, a1]) h3).2
      simp only [chainGap, vsub, length_zipWith, length_map]
      omega
    rw [← hl]
    exact sumSq_le fun x hx => gap_bound hh hu h3 (hw r hr) (hM r hr) x hx
  have hql := hw q hq
  obtain ⟨u1, u2, u3, u4⟩ := uniformRow_at (f := q) h (by omega)
  have e1 : gradOf t q = ddtUniformRow [scaled h [-3, 4, -1] 2] (scaled h [-1, 0, 1] 2) q := by
    rw [gradOf, rows_agree hh.ne' hu hql h3]
  rw [← e1] at u1 u3
  have hmid : (t.length - 2 : ℕ) * m ^ 2 ≤ sumSq (gradOf t q) := by
    have hsplit : gradOf t q = (gradOf t q).take 1 ++ (((gradOf t q).drop 1).take (t.length - 2) ++
        ((gradOf t q).drop 1).drop (t.length - 2)) := by
      rw [take_append_drop, take_append_drop]
    have hlen : (((gradOf t q).drop 1).take (t.length - 2)).length = t.length - 2 := by
      rw [length_take, length_drop]
      omega
    have hge := le_sumSq (xs := ((gradOf t q).drop 1).take (t.length - 2)) hm (by
      intro x hx
      obtain ⟨i, hi, rfl⟩ := mem_iff_getElem.1 hx
      rw [hlen] at hi
      have e : (((gradOf t q).drop 1).take (t.length - 2))[i] = (gradOf t q).getD (i + 1) 0 := by
        rw [getElem_take, getElem_drop, getD_eq_getElem?_getD, getElem?_eq_getElem (by omega), Option.getD_some]
        congr 1
        omega
      rw [e, u3 i (by omega)]
      have i1 := hinc i (by omega)
      have i2 := hinc (i + 1) (by omega)
      refine le_trans ?_ (le_abs_self _)
      rw [le_div_iff₀ (by linarith)]
      have e2 : q.getD (i + 1 + 1) 0 = q.getD (i + 2) 0 := rfl
      rw [e2] at i2
      linarith)
    rw [hlen] at hge
    rw [hsplit, sumSq_append, sumSq_append]
    have := sumSq_nonneg ((gradOf t q).take 1)
    have := sumSq_nonneg (((gradOf t q).drop 1).drop (t.length - 2))
    linarith
  have hlow := le_sum_map (f := fun q => sumSq (gradOf t q)) (fun a _ => sumSq_nonneg (gradOf t a)) hq
  have hnn : 0 ≤ (rows.map fun q => sumSq (gradOf t (q.map (· ^ 2)))).sum := by
    apply sum_nonneg
    intro x hx
    obtain ⟨b, _, rfl⟩ := mem_map.1 hx
    exact sumSq_nonneg _
  have hcast : (t.length : K) ≤ 3 * ((t.length - 2 : ℕ) : K) := by
    have : t.length ≤ 3 * (t.length - 2) := by omega
    exact_mod_cast this
  have hk : (0 : K) ≤ ((t.length - 2 : ℕ) : K) := Nat.cast_nonneg _
  calc (rows.map fun q => sumSq (chainGap t q)).sum ≤ rows.length * (t.length * (2 * M ^ 2 * h) ^ 2) := hup
    _ = t.length * (4 * rows.length * M ^ 4 * h ^ 2) := by ring
    _ ≤ (3 * ((t.length - 2 : ℕ) : K)) * (4 * rows.length * M ^ 4 * h ^ 2) := by
      apply mul_le_mul_of_nonneg_right hcast
      positivity
    _ = ((t.length - 2 : ℕ) : K) * (12 * rows.length * M ^ 4 * h ^ 2) := by ring
    _ ≤ ((t.length - 2 : ℕ) : K) * (tol ^ 2 * m ^ 2) := mul_le_mul_of_nonneg_left hfine hk
    _ = tol ^ 2 * (((t.length - 2 : ℕ) : K) * m ^ 2) := by ring
    _ ≤ tol ^ 2 * ((rows.map fun q => sumSq (gradOf t q)).sum +
        (rows.map fun q => sumSq (gradOf t (q.map (· ^ 2)))).sum) := by
      apply mul_le_mul_of_nonneg_left _ (sq_nonneg _)
      linarith

/-- `np.linspace(a, a + (k - 1) h, k)`. -/
def equispaced (a h : K) (k : Nat) : List K := (range k).map fun j : Nat => a + j * h

theorem uniformDomain_equispaced (a h : K) {k : Nat} (hk : 2 ≤ k) : uniformDomain (equispaced a h k) = .ok h := by
  have hz : zipWith (fun a b => b - a) (equispaced a h k) (equispaced a h k).tail = replicate (k - 1) h := by
    apply ext_getElem
    · simp [equispaced]
    · intro i h1 h2
      simp only [equispaced, getElem_zipWith, getElem_tail, getElem_map, getElem_range, getElem_replicate]
      push_cast
      ring
  obtain ⟨n, hn⟩ : ∃ n, k - 1 = n + 1 := ⟨k - 2, by omega⟩
  rw [hn, replicate_succ] at hz
  rw [uniformDomain, hz]
  simp

theorem getD_equispaced {a h : K} {k j : Nat} (f : K → K) (hj : j < k) :
    ((equispaced a h k).map f).getD j 0 = f (a + j * h) := by
  simp [equispaced, getD_eq_getElem?_getD, hj]

end Fine

/-- C93: for Lipschitz continuous states on an interval, one of which grows at least at a positive rate, every
sufficiently fine uniform mesh is accepted, however small the tolerance. -/
theorem C93_mesh_refinement (states : List (ℝ → ℝ)) {a b M m tol : ℝ} (hab : a < b) (hm : 0 < m) (htol : 0 < tol)
    (hM : ∀ f ∈ states, ∀ x ∈ Set.Icc a b, ∀ y ∈ Set.Icc a b, |f y - f x| ≤ M * |y - x|)
    {g : ℝ → ℝ} (hg : g ∈ states) (hinc : ∀ x ∈ Set.Icc a b, ∀ y ∈ Set.Icc a b, x ≤ y → m * (y - x) ≤ g y - g x) :
    ∃ N : ℕ, ∀ k : ℕ, N ≤ k → (quadLifter (K := ℝ)).verify Real.sqrt tol (some (.arr (equispaced a ((b - a) / (k - 1)) k)))
      (.mat k (states.map fun f => (equispaced a ((b - a) / (k - 1)) k).map f)) = .ok () := by
  obtain ⟨N, hN⟩ := exists_nat_gt ((b - a) ^ 2 * (12 * states.length * M ^ 4) / (tol ^ 2 * m ^ 2))
  refine ⟨N + 3, fun k hk => ?_⟩
  have hk1 : (2 : ℝ) ≤ k - 1 := by
    have : (3 : ℝ) ≤ k := by exact_mod_cast (by omega : 3 ≤ k)
    linarith
  have hkN : (N : ℝ) ≤ k - 1 := by
    have : ((N + 1 : ℕ) : ℝ) ≤ k := by exact_mod_cast (by omega : N + 1 ≤ k)
    push_cast at this
    linarith
  obtain ⟨h, hh⟩ : ∃ h, h = (b - a) / ((k : ℝ) - 1) := ⟨_, rfl⟩
  rw [← hh]
  have hpos : 0 < h := by
    rw [hh]
    exact div_pos (by linarith) (by linarith)
  have hlen : (equispaced a h k).length = k := by simp [equispaced]
  have hmem : ∀ j : ℕ, j < k → a + j * h ∈ Set.Icc a b := by
    intro j hj
    constructor
    · have : 0 ≤ (j : ℝ) * h := mul_nonneg (Nat.cast_nonneg _) hpos.le
      linarith
    · have hj' : (j : ℝ) ≤ k - 1 := by
        have : ((j + 1 : ℕ) : ℝ) ≤ k := by exact_mod_cast (by omega : j + 1 ≤ k)
        push_cast at this
        linarith
      have : (j : ℝ) * h ≤ (k - 1) * h := mul_le_mul_of_nonneg_right hj' hpos.le
      have e : ((k : ℝ) - 1) * h = b - a := by
        rw [hh]
        field_simp
      linarith
  have hsqrt : SquareRoot Real.sqrt := fun x hx => ⟨Real.sqrt_nonneg x, Real.sq_sqrt hx⟩
  have hrow : ∀ row ∈ states.map fun f => (equispaced a h k).map f, row.length = (equispaced a h k).length := by
    intro row hr
    obtain ⟨f, _, rfl⟩ := mem_map.1 hr
    rw [length_map]
  have hstep : ∀ j : ℕ, a + ((j + 1 : ℕ) : ℝ) * h - (a + j * h) = h := by
    intro j
    push_cast
    ring
  have := C93_fine_mesh (M := M) (m := m) hsqrt htol.le hpos hm.le (uniformDomain_equispaced a h (by omega : 2 ≤ k))
    (by omega) hrow ?_ (mem_map_of_mem hg) ?_ ?_
  · rwa [hlen] at this
  · intro row hr
    obtain ⟨f, hf, rfl⟩ := mem_map.1 hr
    intro j hj
    rw [length_map, hlen] at hj
    rw [getD_equispaced f hj, getD_equispaced f (by omega)]
    have := hM f hf _ (hmem j (by omega)) _ (hmem (j + 1) hj)
    rwa [hstep, abs_of_pos hpos] at this
  · intro j hj
    rw [length_map, hlen] at hj
    rw [getD_equispaced g hj, getD_equispaced g (by omega)]
    have := hinc _ (hmem j (by omega)) _ (hmem (j + 1) hj) (by have := hstep j; linarith)
    rwa [hstep] at this
  · rw [length_map]
    have hden : 0 < tol ^ 2 * m ^ 2 := by positivity
    have h1 : (b - a) ^ 2 * (12 * states.length * M ^ 4) < N * (tol ^ 2 * m ^ 2) := (div_lt_iff₀ hden).1 hN
    have hk0 : (0 : ℝ) < k - 1 := by linarith
    have hNk : (N : ℝ) ≤ (k - 1) ^ 2 := by nlinarith
    have e : 12 * (states.length : ℝ) * M ^ 4 * h ^ 2 =
        (b - a) ^ 2 * (12 * states.length * M ^ 4) / (k - 1) ^ 2 := by
      rw [hh]
      field_simp
    rw [e, div_le_iff₀ (by positivity)]
    calc _ ≤ _ := h1.le
      _ ≤ (k - 1) ^ 2 * (tol ^ 2 * m ^ 2) := mul_le_mul_of_nonneg_right hNk hden.le
      _ = _ := by ring

end Opinf
