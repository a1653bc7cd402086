import Verif.Props.VerifyOp
import Verif.Props.ModelIO
import Verif.Lemmas.Mono

/-!
# C94: `verify()` of the operators of the package
-/

namespace Opinf

open List

variable {K : Type}

/-! ### `apply()` -/

theorem apply_vec_not_scalar [CommSemiring K] (o : OpKind) (E : Mat K) (q u : List K) (x : K) :
    o.apply E (.vec q) (.vec u) ≠ .ok (.scalar x) := by
  cases o with
  | const =>
    simp only [OpKind.apply, applyConst, ne_eq, Except.ok.injEq]
    split <;> simp
  | lin =>
    simp only [OpKind.apply, applyLin, matArg, Arg.emap]
    split
    · simp
    · split <;> simp
  | kron k =>
    simp only [OpKind.apply, applyKron, Arg.emap]
    split
    · simp
    · split <;> simp
  | inp =>
    simp only [OpKind.apply, applyInp, matArg]
    split
    · split
      · simp
      · split
        · simp
        · split <;> simp
    · split <;> simp
  | stateInp =>
    simp only [OpKind.apply, applyStateInp, bmul]
    split
    · split <;> simp
    · split
      · split <;> simp
      · split <;> simp

theorem apply_vec [CommSemiring K] (o : OpKind) (E : Mat K) (r m : Nat) (hF : o.Fits E r m) (q u : List K)
    (hq : q.length = r) (hu : u.length = m) :
    o.apply E (.vec q) (.vec u) = .ok (.vec (matVec E.rows (o.dataCol q u))) := by
  have h1 := applyV_eq o E r m hF q u hq hu
  unfold OpKind.applyV at h1
  rcases h : o.apply E (.vec q) (.vec u) with e | a
  · rw [h] at h1
    cases h1
  · have h2 := apply_vec_not_mat o E r m hF q u hq hu a h
    rw [h] at h1
    cases a with
    | scalar x => exact absurd h (apply_vec_not_scalar o E q u x)
    | vec y => exact congrArg (fun z => Except.ok (Arg.vec z)) (Except.ok.inj h1)
    | mat n cols => simp [Arg.isMat] at h2

/-- The input argument an operator is called with. -/
def OpKind.ctrl (o : OpKind) {α : Type} (u : α) : Option α := if o.hasInputs then some u else none

theorem opApply_vec [CommSemiring K] (o : OpKind) (E : Mat K) (r m : Nat) (hF : o.Fits E r m) (q u : List K)
    (hq : q.length = r) (hu : u.length = m) :
    (⟨o, some E⟩ : Op K).apply (.vec q) ((o.ctrl u).map .vec) = .ok (.vec (matVec E.rows (o.dataCol q u))) := by
  rw [← apply_vec o E r m hF q u hq hu]
  cases o <;> rfl

theorem opApply_mat [CommSemiring K] (o : OpKind) (E : Mat K) (r m : Nat) (hF : o.Fits E r m) (cols us : List (List K))
    (hc : ∀ q ∈ cols, q.length = r) (hu : ∀ u ∈ us, u.length = m) (hl : us.length = cols.length) :
    (⟨o, some E⟩ : Op K).apply (.mat r cols) (o.ctrl (.mat m us)) =
      .ok (.mat r (zipWith (fun q u => matVec E.rows (o.dataCol q u)) cols us)) := by
  rw [← apply_mat o E r m hF cols us hc hu hl]
  cases o <;> rfl

/-! ### Difference quotients -/

theorem length_unitVec [Zero K] [One K] (n i : Nat) : (unitVec n i : List K).length = n := by simp [unitVec]

/-- The matrix of difference quotients of `q ↦ E d(q, u)`. -/
def OpKind.quotients [Field K] (o : OpKind) (E : Mat K) (r : Nat) (u x : List K) (h : K) : List (List K) :=
  transpose r ((range r).map fun i => (vsub (matVec E.rows (o.dataCol (vadd x (vsmul h (unitVec r i))) u))
    (matVec E.rows (o.dataCol x u))).map (· / h))

section

variable [Field K] [DecidableEq K] (solve : List (List K) → Mat K → Except Err (Mat K))

theorem opI_applyVec (o : OpKind) (E : Mat K) (r m : Nat) (hF : o.Fits E r m) (q u : List K)
    (hq : q.length = r) (hu : u.length = m) :
    (opI solve).applyVec ⟨o, some E⟩ r q (o.ctrl u) = .ok (matVec E.rows (o.dataCol q u)) := by
  have h : (opI solve).apply ⟨o, some E⟩ (.vec q) ((o.ctrl u).map .vec) = _ := opApply_vec o E r m hF q u hq hu
  have hl : (matVec E.rows (o.dataCol q u)).length = r := by rw [length_matVec, hF.1.1, hF.2.1]
  rw [OperI.applyVec, exBind_iff]
  exact ⟨_, h, by simp only [hl, if_true]; rfl⟩

theorem opI_gradientRows (o : OpKind) (E : Mat K) (r m : Nat) (hF : o.Fits E r m) (x u : List K)
    (hx : x.length = r) (hu : u.length = m) (h : K) :
    (opI solve).gradientRows ⟨o, some E⟩ r (o.ctrl u) x h = .ok (o.quotients E r u x h) := by
  rw [OperI.gradientRows, exBind_iff]
  refine ⟨(range r).map fun i => (vsub (matVec E.rows (o.dataCol (vadd x (vsmul h (unitVec r i))) u))
    (matVec E.rows (o.dataCol x u))).map (· / h), mapM_ok_of fun i _ => ?_, rfl⟩
  have hl : (vadd x (vsmul h (unitVec r i))).length = r := by
    rw [length_vadd, length_vsmul, length_unitVec, hx, min_self]
  rw [OperI.diffQuot, exBind_iff]
  refine ⟨_, opI_applyVec solve o E r m hF _ u hl hu, ?_⟩
  rw [exBind_iff]
  exact ⟨_, opI_applyVec solve o E r m hF x u hx hu, rfl⟩

end

/-- The matrix with the given entries. -/
def tabulate (r : Nat) (f : Nat → Nat → K) : List (List K) := (range r).map fun j => (range r).map fun i => f j i

theorem tabulate_getD [Zero K] {r : Nat} {J : List (List K)} (hJ : J.length = r) (hJr : ∀ row ∈ J, row.length = r) :
    tabulate r (fun j i => (J.getD j []).getD i 0) = J := by
  apply ext_getElem
  · simp [tabulate, hJ]
  · intro j h1 h2
    have hl := hJr _ (getElem_mem h2)
    simp only [tabulate, getElem_map, getElem_range, getD_eq_getElem?_getD, getElem?_eq_getElem h2, Option.getD_some]
    apply ext_getElem
    · simp [hl]
    · intro i h3 h4
      simp only [getElem_map, getElem_range, getElem?_eq_getElem h4, Option.getD_some]

theorem vsub_tabulate [Field K] (r : Nat) (f g : Nat → Nat → K) :
    zipWith vsub (tabulate r f) (tabulate r g) = tabulate r fun j i => f j i - g j i := by
  simp only [tabulate, zipWith_map, zipWith_self, vsub]

theorem matVec_unit [Field K] {r : Nat} {J : List (List K)} (hJ : J.length = r) (hJr : ∀ row ∈ J, row.length = r)
    {i j : Nat} (hj : j < r) (hi : i < r) : (matVec J (unitVec r i)).getD j 0 = (J.getD j []).getD i 0 := by
  have hjl : j < J.length := by omega
  have hm : (matVec J (unitVec r i)).getD j 0 = dot J[j] (unitVec r i) := by
    simp [matVec, getD_eq_getElem?_getD, hjl]
  rw [hm, unitVec, dot_unit r i _ (hJr _ (getElem_mem hjl)) hi]
  simp [getD_eq_getElem?_getD, hjl]

theorem quotient_entry [Field K] (h : K) (hh : h ≠ 0) (a b : List K) (hab : a.length = b.length) (j : Nat) :
    ((vsub (vadd a (vsmul h b)) a).map (· / h)).getD j 0 = b.getD j 0 := by
  simp only [vsub, vadd, vsmul, getD_eq_getElem?_getD]
  by_cases hj : j < a.length
  · rw [getElem?_eq_getElem (by simp; omega), getElem?_eq_getElem (by omega)]
    simp
    field_simp
  · rw [getElem?_eq_none (by simp; omega), getElem?_eq_none (by omega)]

/-- The difference quotients of an operator, expanded in powers of the step. -/
theorem quotients_expand [Field K] [CharZero K] (o : OpKind) (E : Mat K) (r m : Nat) (hr : 0 < r) (hF : o.Fits E r m)
    (x u : List K) (hx : x.length = r) (hu : u.length = m) :
    ∃ J, o.jacobian E x u = .ok J ∧ J.length = r ∧ (∀ row ∈ J, row.length = r) ∧ ∃ R2 R3 R4 : Nat → Nat → K,
      ∀ h : K, h ≠ 0 → o.quotients E r u x h = tabulate r fun j i =>
        (J.getD j []).getD i 0 + h * (R2 j i + h * R3 j i + h ^ 2 * R4 j i) := by
  obtain ⟨J, hJ, hJl, hJr, _⟩ := C04_jacobian_is_derivative o E r m hr hF x u x hx hu hx
  refine ⟨J, hJ, hJl, hJr, ?_⟩
  have key : ∀ i, ∃ R2 R3 R4 : List K, ∀ h : K, ∀ j, j < r →
      (matVec E.rows (o.dataCol (vadd x (vsmul h (unitVec r i))) u)).getD j 0 =
        (matVec E.rows (o.dataCol x u)).getD j 0 + h * (matVec J (unitVec r i)).getD j 0 + h ^ 2 * R2.getD j 0 +
          h ^ 3 * R3.getD j 0 + h ^ 4 * R4.getD j 0 := by
    intro i
    obtain ⟨J', hJ', _, _, R2, R3, R4, h2, h3, h4, hR⟩ := C04_jacobian_is_derivative o E r m hr hF x u (unitVec r i) hx hu
      (length_unitVec r i)
    rw [hJ] at hJ'
    cases hJ'
    refine ⟨R2, R3, R4, fun h j hj => ?_⟩
    obtain ⟨a0, a1, e0, e1, e2⟩ := hR h
    have hl : (vadd x (vsmul h (unitVec r i))).length = r := by
      rw [length_vadd, length_vsmul, length_unitVec, hx, min_self]
    rw [applyV_eq o E r m hF x u hx hu] at e0
    rw [applyV_eq o E r m hF _ u hl hu] at e1
    cases e0
    cases e1
    have hA : (matVec E.rows (o.dataCol x u)).length = r := by rw [length_matVec, hF.1.1, hF.2.1]
    have hB : (matVec J (unitVec r i)).length = r := by rw [length_matVec, hJl]
    rw [e2]
    simp only [vadd, vsmul, getD_eq_getElem?_getD]
    rw [getElem?_eq_getElem (by simp [hA, hB, h2, h3, h4, hj])]
    simp [hA, hB, h2, h3, h4, hj]
  choose R2 R3 R4 hR using key
  refine ⟨fun j i => (R2 i).getD j 0, fun j i => (R3 i).getD j 0, fun j i => (R4 i).getD j 0, fun h hh => ?_⟩
  simp only [OpKind.quotients, transpose, tabulate, map_map]
  refine map_congr_left fun j hj => map_congr_left fun i hi => ?_
  have hj := mem_range.1 hj
  have hi := mem_range.1 hi
  have hA : ∀ q : List K, (matVec E.rows (o.dataCol q u)).length = r := fun q => by rw [length_matVec, hF.1.1, hF.2.1]
  have h1 : ((vsub (matVec E.rows (o.dataCol (vadd x (vsmul h (unitVec r i))) u))
      (matVec E.rows (o.dataCol x u))).map (· / h)).getD j 0 =
      ((matVec E.rows (o.dataCol (vadd x (vsmul h (unitVec r i))) u)).getD j 0 -
        (matVec E.rows (o.dataCol x u)).getD j 0) / h := by
    simp only [vsub, getD_eq_getElem?_getD]
    rw [getElem?_eq_getElem (by simp [hA, hj])]
    simp [hA, hj]
  simp only [Function.comp]
  rw [h1, hR i h j hj, matVec_unit hJl hJr hj hi]
  field_simp
  ring

/-- For the operators that are affine in the state the difference quotients are exact. -/
theorem quotients_affine [Field K] [CharZero K] (o : OpKind) (ho : ∀ k, o ≠ .kron k) (E : Mat K) (r m : Nat) (hr : 0 < r)
    (hF : o.Fits E r m) (x u : List K) (hx : x.length = r) (hu : u.length = m) :
    ∃ J, o.jacobian E x u = .ok J ∧ J.length = r ∧ (∀ row ∈ J, row.length = r) ∧
      ∀ h : K, h ≠ 0 → o.quotients E r u x h = J := by
  obtain ⟨J, hJ, hJl, hJr, _⟩ := C04_jacobian_is_derivative o E r m hr hF x u x hx hu hx
  refine ⟨J, hJ, hJl, hJr, fun h hh => ?_⟩
  have hrows : E.rows.length = r := hF.1.1.trans hF.2.1
  have hA : ∀ q : List K, (matVec E.rows (o.dataCol q u)).length = r := fun q => by rw [length_matVec, hrows]
  have hzero : ∀ d : List K, matVec (replicate r (replicate r 0)) d = replicate r (0 : K) := fun d => by simp [matVec]
  have haff : ∀ d : List K, d.length = r → matVec E.rows (o.dataCol (vadd x (vsmul h d)) u) =
      vadd (matVec E.rows (o.dataCol x u)) (vsmul h (matVec J d)) := by
    intro d hd
    cases o with
    | const =>
      simp only [OpKind.jacobian, hF.2.1, Except.ok.injEq] at hJ
      rw [← hJ, hzero, vadd_zero_right _ _ _ (hA x)]
      rfl
    | inp =>
      simp only [OpKind.jacobian, hF.2.1, Except.ok.injEq] at hJ
      rw [← hJ, hzero, vadd_zero_right _ _ _ (hA x)]
      rfl
    | lin =>
      simp only [OpKind.jacobian, Except.ok.injEq] at hJ
      subst hJ
      simp only [OpKind.dataCol]
      rw [matVec_vadd _ _ _ (by simp [hx, hd]), matVec_vsmul]
    | stateInp =>
      have hc : E.ncols = r * m := hF.2.2
      have hm : E.ncols / E.nrows = m := by rw [hc, hF.2.1, Nat.mul_div_cancel_left m hr]
      simp only [OpKind.jacobian] at hJ
      rw [hm, if_neg (by simp [hu]), hF.2.1, Except.ok.injEq] at hJ
      have hJd : matVec J d = matVec E.rows (kron u d) := by
        rw [← hJ]
        simp only [matVec, map_map]
        refine map_congr_left fun row hrow => ?_
        exact dot_chunks r m row u d (by rw [hF.1.2 row hrow, hc, mul_comm]) hu hd
      rw [hJd]
      simp only [OpKind.dataCol]
      rw [kron_vadd_right _ _ _ _ (hx.trans hd.symm), matVec_vadd _ _ _ (by simp [length_kron, hx, hd]), matVec_vsmul]
    | kron k => exact absurd rfl (ho k)
  rw [← tabulate_getD hJl hJr]
  simp only [OpKind.quotients, transpose, tabulate, map_map]
  refine map_congr_left fun j hj => map_congr_left fun i hi => ?_
  have hj := mem_range.1 hj
  have hi := mem_range.1 hi
  simp only [Function.comp]
  rw [haff _ (length_unitVec r i), quotient_entry h hh _ _ (by rw [hA, length_matVec, hJl]), matVec_unit hJl hJr hj hi]

section

variable [Field K] [LinearOrder K] [IsStrictOrderedRing K]

theorem energyOf_tabulate (r : Nat) (f : Nat → Nat → K) :
    energyOf (tabulate r f) = ((range r).map fun j => ((range r).map fun i => f j i ^ 2).sum).sum := by
  simp only [energyOf, tabulate, map_map, sumSq, Function.comp_def]

theorem energyOf_tabulate_le (r : Nat) (f g : Nat → Nat → K) (h : ∀ j i, |f j i| ≤ |g j i|) :
    energyOf (tabulate r f) ≤ energyOf (tabulate r g) := by
  rw [energyOf_tabulate, energyOf_tabulate]
  refine List.sum_le_sum fun j _ => List.sum_le_sum fun i _ => sq_le_sq.2 (h j i)

theorem energyOf_tabulate_mul (r : Nat) (c : K) (f : Nat → Nat → K) :
    energyOf (tabulate r fun j i => c * f j i) = c ^ 2 * energyOf (tabulate r f) := by
  rw [energyOf_tabulate, energyOf_tabulate, ← List.sum_map_mul_left]
  refine congrArg List.sum (map_congr_left fun j _ => ?_)
  rw [← List.sum_map_mul_left]
  exact congrArg List.sum (map_congr_left fun i _ => mul_pow _ _ _)

/-- C94: for every operator of the package the difference quotients with a step `0 < h ≤ 1` agree with `jacobian()` up
to `O(h)`: the squared error is at most `h² C`. -/
theorem C94_difference_bound (o : OpKind) (E : Mat K) (r m : Nat) (hr : 0 < r) (hF : o.Fits E r m)
    (x u : List K) (hx : x.length = r) (hu : u.length = m) :
    ∃ J, o.jacobian E x u = .ok J ∧ ∃ C : K, 0 ≤ C ∧ ∀ h : K, 0 < h → h ≤ 1 →
      energyOf (zipWith vsub (o.quotients E r u x h) J) ≤ h ^ 2 * C := by
  obtain ⟨J, hJ, hJl, hJr, R2, R3, R4, hR⟩ := quotients_expand o E r m hr hF x u hx hu
  refine ⟨J, hJ, energyOf (tabulate r fun j i => |R2 j i| + |R3 j i| + |R4 j i|), energyOf_nonneg _, fun h h0 h1 => ?_⟩
  rw [hR h h0.ne']
  nth_rewrite 2 [← tabulate_getD hJl hJr]
  rw [vsub_tabulate, ← energyOf_tabulate_mul]
  refine energyOf_tabulate_le _ _ _ fun j i => ?_
  have e1 : (J.getD j []).getD i 0 + h * (R2 j i + h * R3 j i + h ^ 2 * R4 j i) - (J.getD j []).getD i 0 =
      h * (R2 j i + h * R3 j i + h ^ 2 * R4 j i) := by ring
  rw [e1, abs_mul, abs_mul]
  refine mul_le_mul_of_nonneg_left ?_ (abs_nonneg _)
  have hp : 0 ≤ |R2 j i| + |R3 j i| + |R4 j i| := by
    have := abs_nonneg (R2 j i); have := abs_nonneg (R3 j i); have := abs_nonneg (R4 j i); linarith
  rw [abs_of_nonneg hp]
  have h3 : |h * R3 j i| ≤ |R3 j i| := by
    rw [abs_mul, abs_of_pos h0]
    exact mul_le_of_le_one_left (abs_nonneg _) h1
  have h4 : |h ^ 2 * R4 j i| ≤ |R4 j i| := by
    rw [abs_mul, abs_of_pos (pow_pos h0 2)]
    exact mul_le_of_le_one_left (abs_nonneg _) (pow_le_one₀ h0.le h1)
  calc _ ≤ |R2 j i + h * R3 j i| + |h ^ 2 * R4 j i| := abs_add_le _ _
    _ ≤ |R2 j i| + |h * R3 j i| + |h ^ 2 * R4 j i| := by gcongr; exact abs_add_le _ _
    _ ≤ _ := by gcongr

/-- C94: if the Jacobian is not zero, the relative error of the difference quotients is below any positive tolerance
for all sufficiently small steps. -/
theorem C94_differences_converge (o : OpKind) (E : Mat K) (r m : Nat) (hr : 0 < r) (hF : o.Fits E r m)
    (x u : List K) (hx : x.length = r) (hu : u.length = m) (J : List (List K)) (hJ : o.jacobian E x u = .ok J)
    (hJ0 : 0 < energyOf J) (tol : K) (ht : 0 < tol) : ∃ h0 : K, 0 < h0 ∧ ∀ h : K, 0 < h → h ≤ h0 →
      energyOf (zipWith vsub (o.quotients E r u x h) J) ≤ tol ^ 2 * energyOf J := by
  obtain ⟨J', hJ', C, hC, hb⟩ := C94_difference_bound o E r m hr hF x u hx hu
  rw [hJ] at hJ'
  cases hJ'
  have hD : 0 < tol ^ 2 * energyOf J := mul_pos (pow_pos ht 2) hJ0
  refine ⟨min 1 (tol ^ 2 * energyOf J / (C + 1)), lt_min one_pos (div_pos hD (by linarith)), fun h h1 h2 => ?_⟩
  have h3 : h ≤ 1 := h2.trans (min_le_left _ _)
  have h4 : h ≤ tol ^ 2 * energyOf J / (C + 1) := h2.trans (min_le_right _ _)
  refine (hb h h1 h3).trans ?_
  rw [le_div_iff₀ (by linarith)] at h4
  have h5 : h ^ 2 * C ≤ h * (C + 1) := by
    have : h ^ 2 ≤ h := by nlinarith
    have := mul_le_mul_of_nonneg_right this hC
    nlinarith
  exact h5.trans h4

end

end Opinf
