import Verif.Model.VerifyDdt
import Verif.Props.FiniteDiff
import Verif.Props.VerifyOp
import Verif.Props.VerifyLift
import Mathlib.Algebra.Order.Ring.Rat

/-!
# C97: what `verify()` of a derivative estimator accepts and reports

For estimators of any class: which estimators pass, what the report contains, and that the time domain is restored. For
the finite difference classes: they pass as soon as the time domain is long enough, and the reported errors.
-/

namespace Opinf

open List

variable {K σ : Type}

/-! ### Shapes -/

/-- What `verify_shapes()` documents: states, derivatives and inputs come back with as many rows as given, and with equal
numbers of columns. -/
def TidyShapes (est : EstFn K σ) (e : Est K σ) (Q U : Mat K) : Prop :=
  ∃ Q1 D1 Q2 D2 U2 : Mat K, est e Q none = .ok (.pair Q1 D1) ∧ est e Q (some U) = .ok (.triple Q2 D2 (some U2)) ∧
    Q1.nrows = Q.nrows ∧ D1.nrows = Q.nrows ∧ Q1.ncols = D1.ncols ∧ U2.nrows = U.nrows ∧ U2.ncols = Q2.ncols

theorem two_iff (x : Err) (o : EstOut K) (Q D : Mat K) : o.two x = .ok (Q, D) ↔ o = .pair Q D := by
  cases o <;> simp [EstOut.two]

theorem three_iff (o : EstOut K) (Q D U : Mat K) : o.three = .ok (Q, D, U) ↔ o = .triple Q D (some U) := by
  cases o with
  | triple Q' D' U' => cases U' <;> simp [EstOut.three]
  | _ => simp [EstOut.three]

/-- **C97.** `verify_shapes()` passes exactly the estimators whose results have matching shapes. -/
theorem C97_shapes_iff (est : EstFn K σ) (e : Est K σ) (Q U : Mat K) :
    estShapes est e Q U = .ok () ↔ TidyShapes est e Q U := by
  simp only [estShapes, exBind_iff, exists_unit_iff, insist_iff, decide_eq_true_eq, TidyShapes]
  constructor
  · rintro ⟨o, ho, ⟨Q1, D1⟩, h1, h2, h3, h4, o', ho', ⟨Q2, D2, U2⟩, h5, h6, h7⟩
    rw [two_iff] at h1
    rw [three_iff] at h5
    exact ⟨Q1, D1, Q2, D2, U2, h1 ▸ ho, h5 ▸ ho', h2, h3, h4, h6, h7⟩
  · rintro ⟨Q1, D1, Q2, D2, U2, h1, h2, h3, h4, h5, h6, h7⟩
    exact ⟨_, h1, (Q1, D1), rfl, h3, h4, h5, _, h2, (Q2, D2, U2), rfl, h6, h7⟩

/-! ### Acceptance, and the state of the estimator afterwards -/

section
variable [Field K] [LinearOrder K]

theorem estLoop_ok (sqrt : K → K) (est : EstFn K σ) (tests : List (DdtTest K)) (own : σ) :
    ∀ (grids : List (List K)) (e e' : Est K σ) (vs : List (List (Val K))), e.own = own →
      (estLoop sqrt est tests grids e = (e', .ok vs) ↔
        Forall₂ (fun t v => estErrors sqrt est tests ⟨t, own⟩ = .ok v) grids vs ∧
          e' = ⟨(grids.getLast?).getD e.times, own⟩) := by
  intro grids
  induction grids with
  | nil =>
    rintro ⟨ts, o⟩ e' vs rfl
    simp only [estLoop, Prod.mk.injEq, Except.ok.injEq, forall₂_nil_left_iff, getLast?_nil, Option.getD_none]
    constructor
    · rintro ⟨h1, h2⟩; exact ⟨h2.symm, h1.symm⟩
    · rintro ⟨h1, h2⟩; exact ⟨h2.symm, h1.symm⟩
  | cons t ts ih =>
    rintro ⟨ts0, o⟩ e' vs rfl
    simp only [estLoop]
    have hlast : ((t :: ts).getLast?).getD ts0 = (ts.getLast?).getD t := by
      cases ts with
      | nil => rfl
      | cons a l => rw [getLast?_cons_cons]; rw [getLast?_eq_some_getLast (cons_ne_nil a l)]; rfl
    rw [hlast]
    cases hv : estErrors sqrt est tests ⟨t, o⟩ with
    | error x =>
      simp only [Prod.mk.injEq, reduceCtorEq, and_false, false_iff, not_and]
      intro h
      cases h with
      | cons h1 _ => rw [hv] at h1; cases h1
    | ok v =>
      simp only
      rcases hl : estLoop sqrt est tests ts ⟨t, o⟩ with ⟨e1, y⟩
      cases y with
      | error x =>
        simp only [Prod.mk.injEq, reduceCtorEq, and_false, false_iff, not_and]
        intro h
        cases h with
        | cons h1 h2 =>
          have := (ih ⟨t, o⟩ _ _ rfl).2 ⟨h2, rfl⟩
          rw [hl] at this
          cases this
      | ok ws =>
        have hi := (ih ⟨t, o⟩ _ _ rfl).1 hl
        simp only [Prod.mk.injEq, Except.ok.injEq]
        constructor
        · rintro ⟨rfl, rfl⟩
          exact ⟨Forall₂.cons hv hi.1, hi.2⟩
        · rintro ⟨h1, h2⟩
          refine ⟨hi.2.trans h2.symm, ?_⟩
          cases h1 with
          | cons h3 h4 =>
            rw [hv] at h3
            have := (ih ⟨t, o⟩ _ _ rfl).2 ⟨h4, rfl⟩
            rw [hl] at this
            rw [Except.ok.inj h3, Except.ok.inj (Prod.mk.inj this).2]

theorem estLoop_error (sqrt : K → K) (est : EstFn K σ) (tests : List (DdtTest K)) :
    ∀ (grids : List (List K)) (e e' : Est K σ) (x : Err), estLoop sqrt est tests grids e = (e', .error x) →
      e'.own = e.own ∧ e'.times ∈ grids ∧ estErrors sqrt est tests e' = .error x := by
  intro grids
  induction grids with
  | nil => intro e e' x h; cases h
  | cons t ts ih =>
    intro e e' x h
    simp only [estLoop] at h
    cases hv : estErrors sqrt est tests { e with times := t } with
    | error y =>
      rw [hv] at h
      cases h
      exact ⟨rfl, mem_cons_self, hv⟩
    | ok v =>
      rw [hv] at h
      simp only at h
      rcases hl : estLoop sqrt est tests ts { e with times := t } with ⟨e1, y⟩
      rw [hl] at h
      cases y with
      | ok vs => cases h
      | error y =>
        cases h
        obtain ⟨h1, h2, h3⟩ := ih _ _ _ hl
        exact ⟨h1, mem_cons_of_mem _ h2, h3⟩

/-- **C97.** `verify()` passes exactly the estimators with matching shapes that handle every test problem; a passing
`verify()` leaves the estimator as it was and reports the errors of each test problem in the order of the time steps. -/
theorem C97_accepted_iff (sqrt : K → K) (est : EstFn K σ) (tests : List (DdtTest K)) (grids : List (List K))
    (e e' : Est K σ) (Q U : Mat K) (R : List (List (Val K))) :
    estVerifyOn sqrt est tests grids e Q U = (e', .ok R) ↔
      TidyShapes est e Q U ∧ e' = e ∧ ∃ vs, R = byTest tests.length vs ∧
        Forall₂ (fun t v => estErrors sqrt est tests { e with times := t } = .ok v) grids vs := by
  rw [← C97_shapes_iff, estVerifyOn]
  obtain ⟨ts0, o⟩ := e
  cases hs : estShapes est ⟨ts0, o⟩ Q U with
  | error x => simp
  | ok u =>
    simp only [true_and]
    rcases hl : estLoop sqrt est tests grids ⟨ts0, o⟩ with ⟨e1, y⟩
    have key := fun e' vs => estLoop_ok sqrt est tests o grids ⟨ts0, o⟩ e' vs rfl
    cases y with
    | error x =>
      simp only [Prod.mk.injEq, reduceCtorEq, and_false, false_iff, not_and, not_exists]
      rintro - vs - h
      have := (key _ _).2 ⟨h, rfl⟩
      rw [hl] at this
      cases this
    | ok vs =>
      obtain ⟨h1, h2⟩ := (key _ _).1 hl
      simp only [Prod.mk.injEq, Except.ok.injEq, h2]
      constructor
      · rintro ⟨rfl, rfl⟩
        exact ⟨rfl, vs, rfl, h1⟩
      · rintro ⟨rfl, ws, rfl, h3⟩
        have := (key _ _).2 ⟨h3, rfl⟩
        rw [hl] at this
        refine ⟨rfl, ?_⟩
        rw [Except.ok.inj (Prod.mk.inj this).2]

/-- **C97.** A `verify()` that fails leaves the estimator as it was if the shapes do not match; if a test problem fails,
the estimator is left with the time domain of that test problem. -/
theorem C97_failed_state (sqrt : K → K) (est : EstFn K σ) (tests : List (DdtTest K)) (grids : List (List K))
    (e e' : Est K σ) (Q U : Mat K) (x : Err) (h : estVerifyOn sqrt est tests grids e Q U = (e', .error x)) :
    (¬ TidyShapes est e Q U ∧ e' = e) ∨
      (e'.own = e.own ∧ e'.times ∈ grids ∧ estErrors sqrt est tests e' = .error x) := by
  rw [← C97_shapes_iff]
  simp only [estVerifyOn] at h
  cases hs : estShapes est e Q U with
  | error y =>
    rw [hs] at h
    cases h
    exact Or.inl ⟨by simp, rfl⟩
  | ok u =>
    rw [hs] at h
    simp only at h
    rcases hl : estLoop sqrt est tests grids e with ⟨e1, y⟩
    rw [hl] at h
    cases y with
    | ok vs => cases h
    | error y =>
      cases h
      exact Or.inr (estLoop_error sqrt est tests grids e _ _ hl)

/-! ### The reported errors -/

/-- The relative error in the Euclidean norm of one row of estimates. -/
def rowError (sqrt : K → K) (d truth : List K) : Val K := ratio (sqrt (sumSq (vsub d truth))) (sqrt (sumSq truth))

theorem bdim_self (n : Nat) : bdim n n = .ok n := by simp [bdim]

theorem bget_eq {A : Mat K} (hA : A.WF) {i j : Nat} (hi : i < A.nrows) (hj : j < A.ncols) :
    A.bget i j = (A.rows.getD i []).getD j 0 := by
  rw [Mat.bget]
  have h1 : (if A.nrows = 1 then 0 else i) = i := by split <;> omega
  have h2 : (if A.ncols = 1 then 0 else j) = j := by split <;> omega
  rw [h1, h2]

theorem bsub_eq {A B : Mat K} (hA : A.WF) (hB : B.WF) (hn : A.nrows = B.nrows) (hm : A.ncols = B.ncols) :
    bsub A B = .ok ⟨A.nrows, A.ncols, zipWith vsub A.rows B.rows⟩ := by
  simp only [bsub, ← hn, ← hm, bdim_self, bind, Except.bind, pure, Except.pure, Except.ok.injEq, Mat.mk.injEq, true_and]
  apply ext_getElem
  · simp [hA.1, hB.1, hn]
  · intro i h1 h2
    simp only [length_map, length_range] at h1
    have hiA : i < A.rows.length := by rw [hA.1]; exact h1
    have hiB : i < B.rows.length := by rw [hB.1, ← hn]; exact h1
    have hlA := hA.2 _ (getElem_mem hiA)
    have hlB := hB.2 _ (getElem_mem hiB)
    simp only [getElem_map, getElem_range, getElem_zipWith]
    apply ext_getElem
    · simp [vsub, hlA, hlB, hm]
    · intro j h3 h4
      simp only [length_map, length_range] at h3
      simp only [getElem_map, getElem_range]
      rw [bget_eq hA h1 h3, bget_eq hB (hn ▸ h1) (hm ▸ h3), Opinf.getD_eq_getElem A.rows [] hiA,
        Opinf.getD_eq_getElem B.rows [] hiB, Opinf.getD_eq_getElem _ 0 (by omega : j < A.rows[i].length),
        Opinf.getD_eq_getElem _ 0 (by omega : j < B.rows[i].length)]
      simp [vsub]

theorem bdiv_eq (a b : List K) (h : a.length = b.length) : bdiv a b = .ok (zipWith ratio a b) := by
  simp only [bdiv, ← h, bdim_self, bind, Except.bind, pure, Except.pure, Except.ok.injEq]
  apply ext_getElem
  · simp [h]
  · intro i h1 h2
    simp only [length_map, length_range] at h1
    have hi : (if a.length = 1 then 0 else i) = i := by split <;> omega
    simp only [getElem_map, getElem_range, getElem_zipWith, hi]
    rw [Opinf.getD_eq_getElem a 0 h1, Opinf.getD_eq_getElem b 0 (h ▸ h1)]

theorem verifyStart_single (x : K) : verifyStart [x] = 0 := rfl

theorem bsub_col {A C : Mat K} (hn : A.nrows = C.nrows) (hm : C.ncols = 1) : ∃ Z, bsub A C = .ok Z := by
  simp only [bsub, ← hn, hm, bdim_self, bind, Except.bind, pure, Except.pure]
  have : bdim A.ncols 1 = .ok A.ncols := by
    rw [bdim]
    by_cases h : A.ncols = 1
    · simp [h]
    · simp [h]
  rw [this]
  exact ⟨_, rfl⟩

/-- **C97.** If `estimate` returns states and derivatives for `w > 0` of the times of a test problem, the reported numbers
are the relative errors of the derivatives with respect to the true derivatives at the *first* `w` times. -/
theorem C97_reported (sqrt : K → K) (est : EstFn K σ) (tests : List (DdtTest K)) (e : Est K σ) (S D : Mat K)
    (h : est e (testStates tests e.times) none = .ok (.pair S D)) (hS : S.nrows = tests.length)
    (hw : S.ncols ≤ e.times.length) (hw0 : 0 < S.ncols) (hD : D.WF) (hDr : D.nrows = tests.length)
    (hDc : D.ncols = S.ncols) :
    estErrors sqrt est tests e =
      .ok (zipWith (fun d (p : DdtTest K) => rowError sqrt d ((e.times.take S.ncols).map p.deriv)) D.rows tests) := by
  have hc : S.firstCol = .ok ⟨S.nrows, 1, S.rows.map fun r => [r.getD 0 0]⟩ := by
    rw [Mat.firstCol, if_neg (by omega)]
  obtain ⟨Z, hZ⟩ := bsub_col (A := testStates tests e.times) (C := ⟨S.nrows, 1, S.rows.map fun r => [r.getD 0 0]⟩)
    hS.symm rfl
  have hT : (testDdts tests e.times).colRange 0 S.ncols =
      ⟨tests.length, S.ncols, tests.map fun p => (e.times.take S.ncols).map p.deriv⟩ := by
    simp only [Mat.colRange, testDdts, Nat.sub_zero, Nat.min_eq_left hw, map_map, Mat.mk.injEq, true_and]
    apply map_congr_left
    intro p _
    simp [map_take]
  have hTw : (⟨tests.length, S.ncols, tests.map fun p => (e.times.take S.ncols).map p.deriv⟩ : Mat K).WF := by
    refine ⟨by simp, ?_⟩
    intro r hr
    obtain ⟨p, _, rfl⟩ := mem_map.1 hr
    simp [hw]
  simp only [estErrors, h, EstOut.two, bind, Except.bind, hc, hZ, verifyStart_single, hT,
    bsub_eq hD hTw hDr hDc, pure, Except.pure]
  rw [bdiv_eq _ _ (by simp [rowNorms, hD.1, hDr])]
  simp only [Except.ok.injEq, rowNorms, zipWith_map_left, zipWith_map_right]
  rw [take_of_length_le (by simp)]
  have key : ∀ (g : DdtTest K → List K) (a : List (List K)) (b : List (DdtTest K)),
      zipWith (fun x p => ratio (sqrt (sumSq x)) (sqrt (sumSq (g p)))) (zipWith (fun d p => vsub d (g p)) a b) b
        = zipWith (fun d p => rowError sqrt d (g p)) a b := by
    intro g a
    induction a with
    | nil => intro b; simp
    | cons x a ih =>
      intro b
      cases b with
      | nil => simp
      | cons y b => simp only [zipWith_cons_cons, ih b, rowError]
  exact key (fun p => (e.times.take S.ncols).map p.deriv) D.rows tests

theorem byTest_table {α β : Type} (g : α → β → Val K) (xs : List α) (ys : List β) :
    byTest ys.length (xs.map fun x => ys.map (g x)) = ys.map fun y => xs.map fun x => g x y := by
  apply ext_getElem
  · simp [byTest]
  · intro i h1 h2
    have hi : i < ys.length := by simpa using h2
    simp only [byTest, getElem_map, getElem_range, filterMap_map]
    have : (fun v : List (Val K) => v[i]?) ∘ (fun x => ys.map (g x)) = fun x => some (g x ys[i]) := by
      funext x
      simp [hi]
    rw [this]
    induction xs with
    | nil => rfl
    | cons x xs ih =>
      simp only [filterMap_cons, map_cons]
      congr 1
      exact ih (by simpa [byTest] using hi) (by simpa using hi)

end

end Opinf
