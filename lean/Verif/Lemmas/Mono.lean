import Verif.Model.Mono
import Verif.Props.Galerkin

/-!
# Lemmas about monolithic models
-/

namespace Opinf

open List

variable {K : Type}

/-! ### Operators applied to matrices of snapshots -/

theorem apply_mat_isMat [CommSemiring K] (o : OpKind) (E : Mat K) (n m : Nat)
    (cols us : List (List K)) (a : Arg K)
    (ha : o.apply E (.mat n cols) (.mat m us) = .ok a) : a.isMat = true := by
  cases o with
  | const =>
    simp only [OpKind.apply, applyConst, Except.ok.injEq] at ha
    subst ha
    split <;> rfl
  | lin =>
    simp only [OpKind.apply, applyLin] at ha
    split at ha
    · simp only [Except.ok.injEq] at ha; subst ha; rfl
    · simp only [matArg] at ha
      split at ha
      · simp only [Except.ok.injEq] at ha; subst ha; rfl
      · simp at ha
  | kron k =>
    simp only [OpKind.apply, applyKron] at ha
    split at ha
    · simp only [Except.ok.injEq] at ha; subst ha; rfl
    · split at ha
      · simp at ha
      · simp only [Except.ok.injEq] at ha; subst ha; rfl
  | inp =>
    simp only [OpKind.apply, applyInp, matArg] at ha
    split at ha
    · simp only [Except.ok.injEq] at ha; subst ha; rfl
    · simp at ha
  | stateInp =>
    simp only [OpKind.apply, applyStateInp] at ha
    split at ha
    · simp only [bmul] at ha
      split at ha
      · simp only [Except.ok.injEq] at ha; subst ha; rfl
      · simp at ha
    · rw [if_neg (by simp)] at ha
      split at ha
      · simp at ha
      · simp only [Except.ok.injEq] at ha; subst ha; rfl

/-- For two-dimensional arguments every operator class computes `entries @ datablock`. -/
theorem apply_mat [CommSemiring K] (o : OpKind) (E : Mat K) (r m : Nat) (hF : o.Fits E r m)
    (cols us : List (List K)) (hc : ∀ q ∈ cols, q.length = r) (hu : ∀ u ∈ us, u.length = m)
    (hl : us.length = cols.length) :
    o.apply E (.mat r cols) (.mat m us)
      = .ok (.mat r (zipWith (fun q u => matVec E.rows (o.dataCol q u)) cols us)) := by
  obtain ⟨hE, hEr, hEc⟩ := hF
  rcases Nat.eq_zero_or_pos cols.length with h0 | hpos
  · have h1 : cols = [] := by simpa using h0
    have h2 : us = [] := by simpa [h0] using hl
    subst h1; subst h2
    cases o with
    | const =>
      simp only [OpKind.apply, applyConst, map_nil, zipWith_nil_left, hEr]
      split <;> simp_all
    | lin =>
      simp only [OpKind.dim] at hEc
      simp [OpKind.apply, applyLin, matArg, Arg.emap, hEr, hEc]
    | kron k =>
      simp [OpKind.apply, applyKron, Arg.emap, hEr]
    | inp =>
      simp only [OpKind.dim] at hEc
      simp [OpKind.apply, applyInp, matArg, hEr, hEc]
    | stateInp =>
      simp only [OpKind.dim] at hEc
      simp only [OpKind.apply, applyStateInp]
      by_cases h : E.ncols = 1
      · have : r * m = 1 := by omega
        have h11 := mul_eq_one.mp this
        simp [h, bmul, h11.1, h11.2]
      · rw [if_neg h, if_neg (by simp), if_neg (by simp [hEc, Nat.mul_comm, atleast2d])]
        simp [hEr, atleast2d]
  · obtain ⟨a, ha, hsh, hsn⟩ := C03_apply_eq_entries_datablock o E hE r m cols.length hEr hEc hpos
      (.mat r cols) (.mat m us) ⟨rfl, rfl, hc⟩ ⟨rfl, hl, hu⟩
      ⟨by simp [Arg.isMat], by simp [Arg.isMat]⟩
    have hm := apply_mat_isMat o E r m cols us a ha
    rw [ha]
    cases a with
    | scalar x => simp [Arg.isMat] at hm
    | vec x => simp [Arg.isMat] at hm
    | mat n' cols' =>
      simp only [Arg.Shaped] at hsh
      simp only [Arg.snaps, OpKind.datablock, map_zipWith] at hsn
      rw [hsh.1, hsn]

/-- Classes without inputs ignore the input argument of `apply`. -/
theorem apply_ignores_input [CommSemiring K] (o : OpKind) (h : o.hasInputs = false) (E : Mat K)
    (s u u' : Arg K) : o.apply E s u = o.apply E s u' := by
  cases o <;> first | rfl | simp [OpKind.hasInputs] at h

theorem dataCol_ignores_input [CommSemiring K] (o : OpKind) (h : o.hasInputs = false)
    (q u u' : List K) : o.dataCol q u = o.dataCol q u' := by
  cases o <;> first | rfl | simp [OpKind.hasInputs] at h

theorem dim_ignores_input (o : OpKind) (h : o.hasInputs = false) (r m m' : Nat) :
    o.dim r m = o.dim r m' := by
  cases o <;> first | rfl | simp [OpKind.hasInputs] at h

theorem fits_ignores_input (o : OpKind) (h : o.hasInputs = false) (E : Mat K) (r m m' : Nat)
    (hF : o.Fits E r m) : o.Fits E r m' := ⟨hF.1, hF.2.1, by rw [hF.2.2]; exact dim_ignores_input o h _ _ _⟩

/-- An input is acceptable for the operator: of the right length, or not used. -/
def InputOK (o : OpKind) (m : Nat) (u : Option (List K)) : Prop :=
  o.hasInputs = true → ∃ v, u = some v ∧ v.length = m

/-- The value of an operator on one state and input: `entries @ data column`. -/
def Op.val [CommSemiring K] (o : Op K) (q : List K) (u : Option (List K)) : List K :=
  match o.entries with
  | none => []
  | some E => matVec E.rows (o.kind.dataCol q (u.getD []))

/-- The operator is calibrated with entries of the right shape. -/
def Op.Cal (o : Op K) (r m : Nat) : Prop := ∃ E, o.entries = some E ∧ o.kind.Fits E r m

theorem Op.Cal.length_val [CommSemiring K] {o : Op K} {r m : Nat} (h : o.Cal r m) (q : List K)
    (u : Option (List K)) : (o.val q u).length = r := by
  obtain ⟨E, hE, hF⟩ := h
  simp [Op.val, hE, length_matVec, hF.1.1, hF.2.1]

/-- `op.apply(q, u)` for a state vector. -/
theorem Op.apply_vec [CommSemiring K] {o : Op K} {r m : Nat} (h : o.Cal r m) (q : List K)
    (u : Option (List K)) (hq : q.length = r) (hu : InputOK o.kind m u) :
    ∃ a, o.apply (.vec q) (u.map .vec) = .ok a ∧ a.isMat = false ∧ a.toVec = o.val q u := by
  obtain ⟨E, hE, hF⟩ := h
  have core : ∀ (m' : Nat) (v : List K), o.kind.Fits E r m' → v.length = m' →
      ∃ a, o.kind.apply E (.vec q) (.vec v) = .ok a ∧ a.isMat = false ∧
        a.toVec = matVec E.rows (o.kind.dataCol q v) := by
    intro m' v hF' hv
    have h1 := applyV_eq o.kind E r m' hF' q v hq hv
    rw [OpKind.applyV] at h1
    cases ha : o.kind.apply E (.vec q) (.vec v) with
    | error e => rw [ha] at h1; simp [Except.map] at h1
    | ok a =>
      rw [ha] at h1
      simp only [Except.map, Except.ok.injEq] at h1
      exact ⟨a, rfl, apply_vec_not_mat o.kind E r m' hF' q v hq hv a ha, h1⟩
  simp only [Op.apply, Op.val, hE]
  by_cases hi : o.kind.hasInputs = true
  · obtain ⟨v, rfl, hv⟩ := hu hi
    exact core m v hF hv
  · have hi' : o.kind.hasInputs = false := by simpa using hi
    cases u with
    | some v => exact core v.length v (fits_ignores_input _ hi' E r m _ hF) rfl
    | none =>
      obtain ⟨a, h1, h2, h3⟩ := core 0 [] (fits_ignores_input _ hi' E r m _ hF) rfl
      refine ⟨a, ?_, h2, h3⟩
      rw [← h1]
      simp only [Option.map_none]
      rw [apply_ignores_input o.kind hi' E (.vec q) (.vec []) (.scalar 0)]
      cases hk : o.kind <;> simp_all [OpKind.hasInputs]

theorem addInto_eq [Add K] (out : List K) (a : Arg K) (h : a.isMat = false)
    (hl : a.toVec.length = out.length) : addInto out a = .ok (vadd out a.toVec) := by
  cases a with
  | mat n c => simp [Arg.isMat] at h
  | scalar y =>
    obtain ⟨x, rfl⟩ := length_eq_one_iff.mp (by simpa [Arg.toVec] using hl.symm)
    rfl
  | vec ys =>
    simp only [Arg.toVec] at hl ⊢
    match ys, hl with
    | [], hl => simp [addInto, hl]
    | [y], hl =>
      obtain ⟨x, rfl⟩ := length_eq_one_iff.mp (by simpa using hl.symm)
      rfl
    | y :: z :: ys, hl => simp only [addInto, hl, if_true]

/-- The right-hand side is the sum of the operator values. -/
def rhsVal [CommSemiring K] (ops : List (Op K)) (r : Nat) (q : List K) (u : Option (List K)) : List K :=
  (ops.map fun o => o.val q u).foldl vadd (replicate r 0)

theorem rhs_eq {S : Type} [CommSemiring K] (M : Model K S) (r m : Nat) (hops : ∀ o ∈ M.ops, o.Cal r m)
    (q : List K) (u : Option (List K)) (hq : q.length = r) (hu : ∀ o ∈ M.ops, InputOK o.kind m u) :
    M.rhs q u = .ok (rhsVal M.ops r q u) := by
  rw [Model.rhs, rhsVal, hq]
  generalize M.ops = ops at hops hu
  have hacc : (replicate r (0 : K)).length = r := by simp
  generalize replicate r (0 : K) = acc at hacc
  induction ops generalizing acc with
  | nil => rfl
  | cons o ops ih =>
    obtain ⟨a, h1, h2, h3⟩ := Op.apply_vec (hops o (by simp)) q u hq (hu o (by simp))
    have hl := (hops o (by simp)).length_val q u
    rw [foldlM_cons, h1]
    simp only [bind, Except.bind, map_cons, foldl_cons]
    rw [addInto_eq acc a h2 (by rw [h3, hl, hacc]), h3]
    exact ih (fun o ho => hops o (by simp [ho])) (fun o ho => hu o (by simp [ho])) _
      (by simp [hl, hacc])

theorem length_rhsVal [CommSemiring K] (ops : List (Op K)) (r m : Nat) (hops : ∀ o ∈ ops, o.Cal r m)
    (q : List K) (u : Option (List K)) : (rhsVal ops r q u).length = r := by
  rw [rhsVal, length_foldl_vadd, length_replicate]
  intro l hl
  obtain ⟨o, ho, rfl⟩ := mem_map.mp hl
  rw [(hops o ho).length_val, length_replicate]

/-! ### `set_entries` keeps entries that already have the operator's shape -/

theorem dim_eq_pow {k : Kind} {r : Nat} (hr : 0 < r) (h : k.dim r = r ^ k.deg) : r = 1 := by
  by_contra hne
  have h2 : 2 ≤ r := by omega
  cases k with
  | quad =>
    simp only [Kind.dim, Kind.deg] at h
    have : r * (r + 1) / 2 * 2 ≤ r * (r + 1) := Nat.div_mul_le_self _ _
    rw [h] at this
    nlinarith
  | cubic =>
    simp only [Kind.dim, Kind.deg] at h
    have : r * (r + 1) * (r + 2) / 6 * 6 ≤ r * (r + 1) * (r + 2) := Nat.div_mul_le_self _ _
    rw [h] at this
    have h3 : 0 < r * r := by positivity
    nlinarith [mul_le_mul_left h2 (r * r), Nat.mul_le_mul h2 h2]
  | quartic =>
    simp only [Kind.dim, Kind.deg] at h
    have : r * (r + 1) * (r + 2) * (r + 3) / 24 * 24 ≤ r * (r + 1) * (r + 2) * (r + 3) :=
      Nat.div_mul_le_self _ _
    rw [h] at this
    have e1 : (r + 1) ≤ 2 * r := by omega
    have e2 : (r + 2) ≤ 2 * r := by omega
    have e3 : 2 * (r + 3) ≤ 5 * r := by omega
    have : r * (r + 1) * (r + 2) * (2 * (r + 3)) ≤ r * (2 * r) * (2 * r) * (5 * r) := by gcongr
    have h4 : 0 < r ^ 4 := by positivity
    nlinarith

theorem setEntries_fits [Field K] (o : OpKind) (Y : Mat K) (r m : Nat) (hr : 0 < r)
    (hF : o.Fits Y r m) : o.setEntries Y = .ok Y := by
  obtain ⟨hY, hYr, hYc⟩ := hF
  cases o with
  | const =>
    simp only [OpKind.dim] at hYc
    simp [OpKind.setEntries, hYc]
  | lin =>
    simp only [OpKind.dim] at hYc
    simp [OpKind.setEntries, hYc, hYr]
  | inp => rfl
  | stateInp =>
    simp only [OpKind.dim] at hYc
    simp [OpKind.setEntries, hYc, hYr, Nat.mul_div_cancel_left m hr]
  | kron k =>
    simp only [OpKind.dim] at hYc
    rcases setEntries_cases k none none Y hY with ⟨h, hs, -⟩ | ⟨-, -, hs, -⟩ | ⟨-, h, -⟩
    · have h1 : r = 1 := dim_eq_pow hr (by rw [← hYc, h, hYr])
      subst h1
      have hc1 : Y.ncols = 1 := by rw [hYc]; cases k <;> rfl
      obtain ⟨e, he⟩ := rows_one_one hY hYr hc1
      have hfix : (⟨Y.nrows, k.dim Y.nrows, Y.rows.map (k.compressRow Y.nrows)⟩ : Mat K) = Y := by
        rw [hYr, he]
        have e1 : k.dim 1 = 1 := by cases k <;> rfl
        have e2 : k.compressRow 1 [e] = [e] := by
          cases k with
          | quad => simp [Kind.compressRow]
          | cubic =>
            have : permSet [0, 0, 0] = [[0, 0, 0]] := by decide
            simp [Kind.compressRow, this, colIdx]
          | quartic =>
            have : permSet [0, 0, 0, 0] = [[0, 0, 0, 0]] := by decide
            simp [Kind.compressRow, this, colIdx]
        obtain ⟨a, b, c⟩ := Y
        simp only at hYr hc1 he
        simp [e1, e2, hYr, hc1, he]
      simp only [OpKind.setEntries, KronOp.empty]
      rw [hs, hfix]
      rfl
    · simp only [OpKind.setEntries, KronOp.empty]
      rw [hs]
      rfl
    · exact absurd (hYc.trans (by rw [hYr])) h

end Opinf
