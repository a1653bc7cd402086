import Verif.Props.Galerkin
import Verif.Props.ModelCopy
import Verif.Props.Predict
import Verif.Lemmas.Lstsq
import Verif.Lemmas.MonoFit

/-!
# C78: the Jacobian of a model is the derivative of its right-hand side
-/

namespace Opinf

open List

variable {K : Type}

/-! ### Specification -/

/-- `a + h b + h² c₂ + h³ c₃ + h⁴ c₄`. -/
def taylor [CommRing K] (h : K) (a b c2 c3 c4 : List K) : List K :=
  vadd (vadd (vadd (vadd a (vsmul h b)) (vsmul (h ^ 2) c2)) (vsmul (h ^ 3) c3)) (vsmul (h ^ 4) c4)

/-! ### Helper lemmas -/

theorem taylor_length [CommRing K] {r : Nat} (h : K) {a b c2 c3 c4 : List K} (ha : a.length = r) (hb : b.length = r)
    (h2 : c2.length = r) (h3 : c3.length = r) (h4 : c4.length = r) : (taylor h a b c2 c3 c4).length = r := by
  simp [taylor, vadd, vsmul, ha, hb, h2, h3, h4]

theorem taylor_add [CommRing K] {r : Nat} (h : K) {a b c2 c3 c4 a' b' c2' c3' c4' : List K} (ha : a.length = r)
    (hb : b.length = r) (h2 : c2.length = r) (h3 : c3.length = r) (h4 : c4.length = r) (ha' : a'.length = r)
    (hb' : b'.length = r) (h2' : c2'.length = r) (h3' : c3'.length = r) (h4' : c4'.length = r) :
    vadd (taylor h a b c2 c3 c4) (taylor h a' b' c2' c3' c4') =
      taylor h (vadd a a') (vadd b b') (vadd c2 c2') (vadd c3 c3') (vadd c4 c4') := by
  refine ext_getElem ?_ fun i h1 h2 => ?_
  · rw [vadd, length_zipWith, taylor_length h ha hb h2 h3 h4, taylor_length h ha' hb' h2' h3' h4', min_self,
      taylor_length (r := r) h] <;> simp [*]
  · simp only [taylor, vadd, vsmul, getElem_zipWith, getElem_map]
    ring

theorem matVec_sumRows [CommRing K] (A B : List (List K)) (d : List K) (r : Nat) (hA : ∀ a ∈ A, a.length = r)
    (hB : ∀ b ∈ B, b.length = r) : matVec (zipWith vadd A B) d = vadd (matVec A d) (matVec B d) := by
  induction A generalizing B with
  | nil => rfl
  | cons a A ih =>
    cases B with
    | nil => rfl
    | cons b B =>
      have := ih B (fun x hx => hA x (mem_cons_of_mem _ hx)) fun x hx => hB x (mem_cons_of_mem _ hx)
      simp only [matVec, vadd, zipWith_cons_cons, map_cons] at this ⊢
      rw [this]
      congr 1
      have := dot_vadd_left a b d (by rw [hA a mem_cons_self, hB b mem_cons_self])
      simpa only [vadd] using this

/-- The value of an operator is what `apply` returns. -/
theorem Op.Cal.val_applyV [Field K] {o : Op K} {r m : Nat} (h : o.Cal r m) {E : Mat K} (hE : o.entries = some E)
    (q u : List K) (hq : q.length = r) (hu : u.length = m) : o.kind.applyV E q u = .ok (o.val q (some u)) := by
  obtain ⟨E', hE', hF⟩ := h
  rw [hE] at hE'
  cases hE'
  rw [applyV_eq o.kind E r m hF q u hq hu, Op.val, hE]
  rfl

/-- One operator. -/
theorem Op.Cal.taylor_val [Field K] [CharZero K] {o : Op K} {r m : Nat} (hr : 0 < r) (h : o.Cal r m) (q u d : List K)
    (hq : q.length = r) (hu : u.length = m) (hd : d.length = r) :
    ∃ E J, o.entries = some E ∧ o.kind.jacobian E q u = .ok J ∧ J.length = r ∧ (∀ row ∈ J, row.length = r) ∧
      ∃ R2 R3 R4 : List K, R2.length = r ∧ R3.length = r ∧ R4.length = r ∧
        ∀ t : K, o.val (vadd q (vsmul t d)) (some u) = taylor t (o.val q (some u)) (matVec J d) R2 R3 R4 := by
  obtain ⟨E, hE, hF⟩ := h
  obtain ⟨J, h1, h2, h3, R2, R3, R4, k2, k3, k4, ht⟩ := C04_jacobian_is_derivative o.kind E r m hr hF q u d hq hu hd
  refine ⟨E, J, hE, h1, h2, h3, R2, R3, R4, k2, k3, k4, fun t => ?_⟩
  obtain ⟨a0, a1, e0, e1, e⟩ := ht t
  have hc : o.Cal r m := ⟨E, hE, hF⟩
  rw [hc.val_applyV hE q u hq hu] at e0
  rw [hc.val_applyV hE _ u (by simp [vadd, vsmul, hq, hd]) hu] at e1
  rw [Except.ok.inj e1, Except.ok.inj e0, e]
  rfl

theorem ops_taylor [Field K] [CharZero K] (r m : Nat) (hr : 0 < r) (ops : List (Op K)) (hcal : ∀ o ∈ ops, o.Cal r m)
    (q u d : List K) (hq : q.length = r) (hu : u.length = m) (hd : d.length = r) (AJ : List (List K))
    (hAJ : AJ.length = r) (hAJr : ∀ row ∈ AJ, row.length = r) (A2 A3 A4 : List K) (h2 : A2.length = r)
    (h3 : A3.length = r) (h4 : A4.length = r) :
    ∃ J, ops.foldlM (fun out op => match op.entries with
        | none => (Except.error .attribute : Except Err (List (List K)))
        | some E => do
          let J ← op.kind.jacobian E q u
          return zipWith vadd out J) AJ = .ok J ∧ J.length = r ∧ (∀ row ∈ J, row.length = r) ∧
      ∃ R2 R3 R4 : List K, R2.length = r ∧ R3.length = r ∧ R4.length = r ∧
        ∀ (t : K) (A0 A1 : List K), A0.length = r → A1 = taylor t A0 (matVec AJ d) A2 A3 A4 →
          (ops.map fun o => o.val (vadd q (vsmul t d)) (some u)).foldl vadd A1 =
            taylor t ((ops.map fun o => o.val q (some u)).foldl vadd A0) (matVec J d) R2 R3 R4 := by
  induction ops generalizing AJ A2 A3 A4 with
  | nil => exact ⟨AJ, rfl, hAJ, hAJr, A2, A3, A4, h2, h3, h4, fun t A0 A1 _ h => h⟩
  | cons o ops ih =>
    have hc := hcal o mem_cons_self
    obtain ⟨E, J, hE, hJ, j1, j2, R2, R3, R4, r2, r3, r4, hv⟩ := hc.taylor_val hr q u d hq hu hd
    obtain ⟨J', f1, f2, f3, R2', R3', R4', k2, k3, k4, hf⟩ := ih (fun o ho => hcal o (mem_cons_of_mem _ ho))
      (zipWith vadd AJ J) (by rw [length_zipWith, hAJ, j1, min_self]) (by
        intro row hrow
        obtain ⟨i, hi, rfl⟩ := mem_iff_getElem.1 hrow
        rw [getElem_zipWith, vadd, length_zipWith, hAJr _ (getElem_mem _), j2 _ (getElem_mem _), min_self])
      (vadd A2 R2) (vadd A3 R3) (vadd A4 R4) (by simp [vadd, h2, r2]) (by simp [vadd, h3, r3]) (by simp [vadd, h4, r4])
    refine ⟨J', ?_, f2, f3, R2', R3', R4', k2, k3, k4, ?_⟩
    · rw [foldlM_cons]
      simp only [hE, hJ, bind, Except.bind, pure, Except.pure]
      exact f1
    · intro t A0 A1 hA0 hA1
      rw [map_cons, map_cons, foldl_cons, foldl_cons]
      have hl : ∀ q', (o.val q' (some u)).length = r := fun q' => hc.length_val q' (some u)
      refine hf t _ _ (by simp [vadd, hA0, hl]) ?_
      rw [hA1, hv t, taylor_add t hA0 (by rw [length_matVec, hAJ]) h2 h3 h4 (hl q) (by rw [length_matVec, j1]) r2 r3 r4,
        matVec_sumRows AJ J d r hAJr j2]

theorem jacobian_ignores [Field K] (o : OpKind) (h : o.hasInputs = false) (E : Mat K) (q u u' : List K) :
    o.jacobian E q u = o.jacobian E q u' := by
  cases o <;> first | rfl | (simp [OpKind.hasInputs] at h)

/-! ### Property theorems -/

/-- **C78.** For every trained model, state `q`, input `u` and direction `d`, `jacobian(q, u)` returns an `r × r` matrix
`J`, and for one fixed set of coefficient vectors and every step `t`,
`rhs(q + t d, u) = rhs(q, u) + t J d + t² R₂ + t³ R₃ + t⁴ R₄`: the sum of the operator Jacobians is the exact derivative
of the right-hand side. -/
theorem C78_jacobian_is_derivative {S : Type} [Field K] [CharZero K] (M : Model K S) (r m : Nat) (hM : M.Trained r m)
    (q u d : List K) (hq : q.length = r) (hu : M.hasInputs = true → u.length = m) (hd : d.length = r) :
    ∃ J : List (List K), M.jacobian q u = .ok J ∧ J.length = r ∧ (∀ row ∈ J, row.length = r) ∧
      ∃ R2 R3 R4 : List K, R2.length = r ∧ R3.length = r ∧ R4.length = r ∧ ∀ t : K, ∃ a0 a1,
        M.rhs q (some u) = .ok a0 ∧ M.rhs (vadd q (vsmul t d)) (some u) = .ok a1 ∧
        a1 = taylor t a0 (matVec J d) R2 R3 R4 := by
  -- without input operators the input plays no role
  obtain ⟨v, hv, hjac, hrhs⟩ : ∃ v : List K, v.length = m ∧ M.jacobian q u = M.jacobian q v ∧
      ∀ q', M.rhs q' (some u) = M.rhs q' (some v) := by
    by_cases hi : M.hasInputs = true
    · exact ⟨u, hu hi, rfl, fun _ => rfl⟩
    · have hno : ∀ o ∈ M.ops, o.kind.hasInputs = false := by
        intro o ho
        have := hM.inv.inputs
        rw [Bool.not_eq_true] at hi
        rw [hi] at this
        simpa using (any_eq_false.mp this.symm) o ho
      refine ⟨replicate m 0, by simp, ?_, fun q' => C21_rhs_ignores_inputs M hno q' _ _⟩
      rw [Model.jacobian, Model.jacobian]
      generalize replicate (M.r.getD 0) (replicate (M.r.getD 0) (0 : K)) = acc
      generalize M.ops = ops at hno
      induction ops generalizing acc with
      | nil => rfl
      | cons o ops ih =>
        rw [foldlM_cons, foldlM_cons]
        have hstep : ∀ acc', foldlM (fun out op => match op.entries with
            | none => (Except.error .attribute : Except Err (List (List K)))
            | some E => do
              let J ← op.kind.jacobian E q u
              return zipWith vadd out J) acc' ops = foldlM (fun out op => match op.entries with
            | none => (Except.error .attribute : Except Err (List (List K)))
            | some E => do
              let J ← op.kind.jacobian E q (replicate m 0)
              return zipWith vadd out J) acc' ops := fun acc' =>
            ih acc' fun o ho => hno o (mem_cons_of_mem _ ho)
        cases hE : o.entries with
        | none => rfl
        | some E =>
          simp only [jacobian_ignores o.kind (hno o mem_cons_self) E q u (replicate m 0), bind, Except.bind]
          cases o.kind.jacobian E q (replicate m 0) with
          | error e => rfl
          | ok J => exact hstep _
  obtain ⟨J, j1, j2, j3, R2, R3, R4, k2, k3, k4, hf⟩ := ops_taylor r m hM.pos M.ops hM.cal q v d hq hv hd
    (replicate r (replicate r 0)) (by simp) (by intro row hrow; rw [eq_of_mem_replicate hrow, length_replicate])
    (replicate r 0) (replicate r 0) (replicate r 0) (by simp) (by simp) (by simp)
  refine ⟨J, ?_, j2, j3, R2, R3, R4, k2, k3, k4, fun t => ?_⟩
  · rw [hjac, Model.jacobian, hM.dim]
    exact j1
  · have hqt : (vadd q (vsmul t d)).length = r := by simp [vadd, vsmul, hq, hd]
    refine ⟨rhsVal M.ops r q (some v), rhsVal M.ops r (vadd q (vsmul t d)) (some v), ?_, ?_, ?_⟩
    · rw [hrhs]
      exact rhs_eq M r m hM.cal q (some v) hq fun o ho _ => ⟨v, rfl, hv⟩
    · rw [hrhs]
      exact rhs_eq M r m hM.cal _ (some v) hqt fun o ho _ => ⟨v, rfl, hv⟩
    · rw [rhsVal, rhsVal]
      refine hf t (replicate r 0) (replicate r 0) (by simp) ?_
      have hz : matVec (replicate r (replicate r 0)) d = replicate r (0 : K) := by simp [matVec]
      have hl : (replicate r (0 : K)).length = r := by simp
      rw [taylor, hz, vadd_zero_right _ _ _ hl, vadd_zero_right _ _ _ hl, vadd_zero_right _ _ _ hl,
        vadd_zero_right _ _ _ hl]

/-- **C78** (uniqueness): the Jacobian is the only matrix with this property. -/
theorem C78_jacobian_unique {S : Type} [Field K] [CharZero K] (M : Model K S) (r m : Nat) (hM : M.Trained r m)
    (q u : List K) (hq : q.length = r) (hu : M.hasInputs = true → u.length = m) (J : List (List K)) (hJ : J.length = r)
    (hJr : ∀ row ∈ J, row.length = r)
    (hder : ∀ d : List K, d.length = r → ∃ R2 R3 R4 : List K, R2.length = r ∧ R3.length = r ∧ R4.length = r ∧
      ∀ t : K, ∃ a0 a1, M.rhs q (some u) = .ok a0 ∧ M.rhs (vadd q (vsmul t d)) (some u) = .ok a1 ∧
        a1 = taylor t a0 (matVec J d) R2 R3 R4) : M.jacobian q u = .ok J := by
  obtain ⟨J', hj, j2, j3, -⟩ := C78_jacobian_is_derivative M r m hM q u q hq hu hq
  rw [hj]
  congr 1
  have key : ∀ d : List K, d.length = r → matVec J' d = matVec J d := by
    intro d hd
    obtain ⟨R2, R3, R4, k2, k3, k4, h⟩ := hder d hd
    obtain ⟨J'', e1, -, -, Q2, Q3, Q4, l2, l3, l4, h'⟩ := C78_jacobian_is_derivative M r m hM q u d hq hu hd
    rw [hj] at e1
    cases e1
    obtain ⟨a0, ha0⟩ : ∃ a0, M.rhs q (some u) = .ok a0 := by
      obtain ⟨a0, _, e, _⟩ := h 0
      exact ⟨a0, e⟩
    have hal : a0.length = r := by rw [rhs_length M ha0, hq]
    have heq : ∀ t : K, taylor t a0 (matVec J' d) Q2 Q3 Q4 = taylor t a0 (matVec J d) R2 R3 R4 := by
      intro t
      obtain ⟨b0, b1, p1, p2, p3⟩ := h t
      obtain ⟨c0, c1, q1, q2, q3⟩ := h' t
      rw [ha0] at p1 q1
      cases p1
      cases q1
      rw [p2] at q2
      cases q2
      rw [← p3, ← q3]
    refine ext_getElem (by rw [length_matVec, length_matVec, j2, hJ]) fun i h1 h2 => ?_
    have hi : i < r := by rw [length_matVec, j2] at h1; exact h1
    have entry : ∀ (t : K) (b c2 c3 c4 : List K) (x1 : i < b.length) (x2 : i < c2.length) (x3 : i < c3.length)
        (x4 : i < c4.length), (taylor t a0 b c2 c3 c4).getD i 0 =
          a0[i] + t * b[i] + t ^ 2 * c2[i] + t ^ 3 * c3[i] + t ^ 4 * c4[i] := by
      intro t b c2 c3 c4 x1 x2 x3 x4
      rw [getD_eq_getElem (taylor t a0 b c2 c3 c4) _ (by simp [taylor, vadd, vsmul]; omega)]
      simp only [taylor, vadd, vsmul, getElem_zipWith, getElem_map]
    have hpoly : ∀ t : K, t * (matVec J' d)[i] + t ^ 2 * Q2[i] + t ^ 3 * Q3[i] + t ^ 4 * Q4[i] =
        t * (matVec J d)[i] + t ^ 2 * R2[i] + t ^ 3 * R3[i] + t ^ 4 * R4[i] := by
      intro t
      have : (taylor t a0 (matVec J' d) Q2 Q3 Q4).getD i 0 = (taylor t a0 (matVec J d) R2 R3 R4).getD i 0 := by
        rw [heq t]
      rw [entry t _ _ _ _ h1 (by omega) (by omega) (by omega), entry t _ _ _ _ h2 (by omega) (by omega) (by omega)] at this
      linear_combination this
    have p1 := hpoly 1
    have p2 := hpoly (-1)
    have p3 := hpoly 2
    have p4 := hpoly (-2)
    have h12 : (12 : K) * (matVec J' d)[i] = 12 * (matVec J d)[i] := by
      linear_combination 8 * p1 - 8 * p2 - p3 + p4
    exact mul_left_cancel₀ (by norm_num) h12
  refine ext_getElem (by rw [j2, hJ]) fun i h1 h2 => ?_
  refine ext_getElem (by rw [j3 _ (getElem_mem _), hJr _ (getElem_mem _)]) fun k g1 g2 => ?_
  have hk : k < r := by rw [j3 _ (getElem_mem _)] at g1; exact g1
  have h3 := key ((range r).map fun i => if k = i then (1 : K) else 0) (by simp)
  have h4 : (matVec J' ((range r).map fun i => if k = i then (1 : K) else 0)).getD i 0 =
      (matVec J ((range r).map fun i => if k = i then (1 : K) else 0)).getD i 0 := by rw [h3]
  rw [getD_eq_getElem (matVec J' _) _ (by rw [length_matVec]; exact h1),
    getD_eq_getElem (matVec J _) _ (by rw [length_matVec]; exact h2)] at h4
  simp only [matVec, getElem_map] at h4
  rw [dot_unit r k _ (j3 _ (getElem_mem _)) hk, dot_unit r k _ (hJr _ (getElem_mem _)) hk, getD_eq_getElem J'[i] _ g1,
    getD_eq_getElem J[i] _ g2] at h4
  exact h4

/-- **C78** (error branch): an operator without entries makes `jacobian` raise `AttributeError`, unless an earlier
operator already raised. -/
theorem C78_jacobian_untrained {S : Type} [Field K] (M : Model K S) (q u : List K) (o : Op K) (ops : List (Op K))
    (h : M.ops = o :: ops) (ho : o.entries = none) : M.jacobian q u = .error .attribute := by
  rw [Model.jacobian, h, foldlM_cons]
  simp only [ho]
  rfl

/-! ### Examples -/

-- a model with a linear, a constant and an input operator
example : exTrained.jacobian [1, 2] [3] = .ok [[1, 3], [2, 4]] := by decide +kernel
example : ∃ J : List (List ℚ), exTrained.jacobian [1, 2] [3] = .ok J ∧ J.length = 2 := by
  obtain ⟨J, h, h', -⟩ := C78_jacobian_is_derivative exTrained 2 1 exTrained_trained [1, 2] [3] [5, 6] rfl (fun _ => rfl) rfl
  exact ⟨J, h, h'⟩

end Opinf
