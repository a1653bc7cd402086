import Verif.Lemmas.MonoHist

/-!
# Fitting a model: residual identity, operator matrix, input arguments
-/

namespace Opinf

open List

variable {K : Type}

/-- The part of a model that is not learned: its known operators only. -/
def Model.knownPart {S : Type} (M : Model K S) : Model K S :=
  { M with slots := M.slots.filter fun s => !s.infer }

/-- **C13.** After a successful `fit` (with any solver whose solutions have the right shape), with
`D` the data matrix given to the solver, `Z` the left-hand side given to it and `O` its solution: the
row of `D` for snapshot `j` is the concatenation of the data columns of the operators to infer; the
column of `Z` is the given left-hand side minus the contribution `w` of the known operators; the
right-hand side `y` of the fitted model is `O` times the data row plus `w`; hence the residual of the
regression is the residual `lhs - rhs` of the model. -/
theorem C13_fit_residual {S : Type} [Field K] (I : SolverI K S) (M : Model K S) (hM : M.Inv)
    (hint : M.intrusive = false) (states lhs : Arg K) (inputs : Option (Arg K)) (hs : states.WF)
    (hl : lhs.WF) (hin : ∀ a ∈ inputs, a.WF) (hr : 0 < (atleast2d states).1)
    (hI : I.Shaped (atleast2d states).1) (M' : Model K S)
    (hfit : M.fit I states lhs inputs = (M', .ok ())) :
    ∃ (s : S) (D O : Mat K) (Z : List (List K)),
      M.solver = some s ∧ M'.solver = some (I.fit s D Z).1 ∧ I.solve (I.fit s D Z).1 = .ok O ∧
      D.rows.length = (atleast2d states).2.length ∧ Z.length = (atleast2d states).2.length ∧
      (atleast2d lhs).2.length = (atleast2d states).2.length ∧
      (I.fit s D Z).2 = .ok () ∧ D.WF ∧ D.nrows = (atleast2d states).2.length ∧
      O.WF ∧ O.nrows = (atleast2d states).1 ∧ O.ncols = D.ncols ∧
      (∀ z ∈ Z, z.length = (atleast2d states).1) ∧
      ∀ j, j < (atleast2d states).2.length →
        D.rows.getD j [] = M.toInfer.flatMap (fun o =>
          o.dataCol ((atleast2d states).2.getD j []) ((inputAt inputs j).getD [])) ∧
        ∃ y w, M'.rhs ((atleast2d states).2.getD j []) (inputAt inputs j) = .ok y ∧
          M.knownPart.rhs ((atleast2d states).2.getD j []) (inputAt inputs j) = .ok w ∧
          Z.getD j [] = vsub ((atleast2d lhs).2.getD j []) w ∧
          y = vadd (matVec O.rows (D.rows.getD j [])) w ∧
          vsub (Z.getD j []) (matVec O.rows (D.rows.getD j []))
            = vsub ((atleast2d lhs).2.getD j []) y := by
  obtain ⟨s, M1, Z, D, O, m, f1, f2, f3, f4, f5, f6, f7, f8, f9, f10, f11, f12, f13, f14, f15, f16,
    f17, f18, f19, f20, f21⟩ := fit_master I M hM hint states lhs inputs hs hl hin hI M' hfit
  have hlhs : (atleast2d lhs).1 = (atleast2d states).1 ∧
      (atleast2d lhs).2.length = (atleast2d states).2.length := by
    rw [Model.fit, if_neg (by simp [hint]), Model.fitSolver] at hfit
    generalize hp : M.processFitArgs states lhs inputs = p at hfit
    obtain ⟨M1, x⟩ := p
    cases x with
    | error e => simp at hfit
    | ok t =>
      obtain ⟨Q, Z, U⟩ := t
      obtain ⟨-, hproc⟩ := process_spec hp
      obtain ⟨-, p2, p3, p4, -⟩ := hproc Q Z U rfl
      exact ⟨p3, by rw [p4, p2]⟩
  obtain ⟨e1, e2, -, e4⟩ := extractLoop_spec (atleast2d states).1 m hr O f11 f12 M1.slots 0
    (by rw [f13, f14]; simp)
  have hslots : M'.slots = (extractLoop (atleast2d states).1 m O 0 M1.slots).1 := by rw [f20]
  have hcalM' : ∀ o ∈ M'.ops, o.Cal (atleast2d states).1 m := by
    intro o ho
    obtain ⟨sl, hsl, rfl⟩ := mem_map.mp ho
    rw [hslots] at hsl
    obtain ⟨t, ht, t1, t2, t3, t4⟩ := forall₂_mem_right e2 hsl
    cases hi : t.infer
    · rw [t3 hi]
      have hk : ∃ E, t.op.entries = some E := by
        rw [f2] at ht
        obtain ⟨t', ht', h1, h2, h3, h4⟩ := mem_clearSlots ht
        rw [h4 (h1 ▸ hi)]
        exact Option.isSome_iff_exists.mp (hM.known t' ht' (h1 ▸ hi))
      obtain ⟨E, hE⟩ := hk
      exact f8 _ (mem_map.mpr ⟨t, ht, rfl⟩) E hE
    · exact t4 hi
  have hkinds : M'.ops.map Op.kind = M1.ops.map Op.kind := by
    rw [Model.ops, Model.ops, hslots]; exact (slotStep_kinds e2).1
  have hknownslots : M'.slots.filter (fun s => !s.infer) = M.slots.filter (fun s => !s.infer) := by
    rw [hslots, (slotStep_kinds e2).2.2, f2, clearSlots_known]
  have htoInfer : M1.toInfer = M.toInfer := by
    rw [Model.toInfer, Model.toInfer, f2, clearSlots_toInfer]
  have hDwf : D.WF := by
    refine ⟨f16.trans f15.symm, fun row hrow => ?_⟩
    rw [mem_iff_getElem] at hrow
    obtain ⟨j, hj, rfl⟩ := hrow
    obtain ⟨g1, g2, -⟩ := f19 j (f16 ▸ hj)
    rw [getD_eq_getElem _ _ hj] at g1
    have hqlen : ((atleast2d states).2.getD j []).length = (atleast2d states).1 := by
      rw [getD_eq_getElem _ _ (f16 ▸ hj)]; exact hs _ (getElem_mem _)
    rw [g1, f14, length_flatMap, inferDim, Model.toInfer, map_map]
    congr 1
    apply map_congr_left
    intro sl hsl
    rw [Function.comp_apply, dataCol_length, hqlen]
    have hok := g2 sl.op (mem_map.mpr ⟨sl, (mem_filter.mp hsl).1, rfl⟩)
    cases hi : sl.op.kind.hasInputs
    · cases hk : sl.op.kind <;> simp_all [OpKind.hasInputs, OpKind.dim]
    · obtain ⟨v, hv, hvl⟩ := hok hi
      rw [hv, Option.getD_some, hvl]
  refine ⟨s, D, O, Z, f1, by rw [f20], f10, f16, f17, hlhs.2, f9, hDwf, f15, f11, f12, f13, f18, ?_⟩
  intro j hj
  obtain ⟨g1, g2, g3⟩ := f19 j hj
  set q := (atleast2d states).2.getD j [] with hq
  set u := inputAt inputs j with hu
  have hqlen : q.length = (atleast2d states).1 := by
    rw [hq, getD_eq_getElem _ _ hj]; exact hs _ (getElem_mem _)
  have hok' : ∀ o ∈ M'.ops, InputOK o.kind m u := by
    intro o ho
    have : o.kind ∈ M1.ops.map Op.kind := by rw [← hkinds]; exact mem_map.mpr ⟨o, ho, rfl⟩
    obtain ⟨o', ho', hk⟩ := mem_map.mp this
    rw [← hk]; exact g2 o' ho'
  have hknown_mem : ∀ o ∈ M.knownPart.ops, o ∈ M'.ops := by
    intro o ho
    simp only [Model.ops, Model.knownPart] at ho ⊢
    rw [← hknownslots] at ho
    obtain ⟨sl, hsl, rfl⟩ := mem_map.mp ho
    exact mem_map.mpr ⟨sl, (mem_filter.mp hsl).1, rfl⟩
  have hy := rhs_eq M' _ m hcalM' q u hqlen hok'
  have hcalK : ∀ o ∈ M.knownPart.ops, o.Cal (atleast2d states).1 m :=
    fun o ho => hcalM' o (hknown_mem o ho)
  have hw := rhs_eq M.knownPart _ m hcalK q u hqlen (fun o ho => hok' o (hknown_mem o ho))
  have hZlen : (Z.getD j []).length = (atleast2d states).1 := by
    rw [getD_eq_getElem _ _ (by rw [f17]; exact hj)]; exact f18 _ (getElem_mem _)
  have hLlen : ((atleast2d lhs).2.getD j []).length = (atleast2d states).1 := by
    rw [getD_eq_getElem _ _ (by rw [hlhs.2]; exact hj)]; exact (hl _ (getElem_mem _)).trans hlhs.1
  have hwlen := length_rhsVal M.knownPart.ops _ m hcalK q u
  have hylen := length_rhsVal M'.ops _ m hcalM' q u
  have hOlen : (matVec O.rows (D.rows.getD j [])).length = (atleast2d states).1 := by
    rw [length_matVec, f11.1, f12]
  have hwi : ∀ i, (rhsVal M.knownPart.ops (atleast2d states).1 q u).getD i 0
      = knownSum M1.slots q u i := by
    intro i
    rw [getD_rhsVal _ _ m hcalK, knownSum, Model.ops, Model.knownPart, map_map, f2, clearSlots_known]
    rfl
  have hk1 : ∀ i, knownSum M'.slots q u i = knownSum M1.slots q u i := by
    intro i
    simp only [knownSum]
    rw [hslots, (slotStep_kinds e2).2.2]
  have hZ : Z.getD j [] = vsub ((atleast2d lhs).2.getD j [])
      (rhsVal M.knownPart.ops (atleast2d states).1 q u) := by
    apply ext_getD_zero
    · rw [length_vsub, hZlen, hLlen, hwlen, Nat.min_self]
    · intro i
      rw [getD_vsub _ _ (by rw [hLlen, hwlen]), g3 i, hwi]
  have hyw : rhsVal M'.ops (atleast2d states).1 q u
      = vadd (matVec O.rows (D.rows.getD j []))
          (rhsVal M.knownPart.ops (atleast2d states).1 q u) := by
    apply ext_getD_zero
    · rw [length_vadd, hOlen, hwlen, hylen, Nat.min_self]
    · intro i
      rw [getD_vadd _ _ (by rw [hOlen, hwlen]), hwi, getD_rhsVal _ _ m hcalM', Model.ops,
        sum_known_infer, hk1, add_comm]
      congr 1
      by_cases hi : i < (atleast2d states).1
      · rw [getD_matVec, hslots, e4 q u hqlen ?_ i hi, drop_zero, g1]
        · rfl
        · intro sl hsl _
          exact g2 _ (mem_map.mpr ⟨sl, hsl, rfl⟩)
      · have hzero : ∀ l : List K, l.length ≤ i → l.getD i 0 = 0 := by
          intro l h
          rw [getD_eq_getElem?_getD, getElem?_eq_none h]; rfl
        rw [hzero _ (by rw [hOlen]; omega), inferSum]
        apply sum_eq_zero
        intro x hx
        obtain ⟨sl, hsl, rfl⟩ := mem_map.mp hx
        apply hzero
        rw [(hcalM' sl.op (mem_map.mpr ⟨sl, (mem_filter.mp hsl).1, rfl⟩)).length_val]
        omega
  refine ⟨by rw [g1, htoInfer], _, _, hy, hw, hZ, hyw, ?_⟩
  apply ext_getD_zero
  · rw [length_vsub, length_vsub, hZlen, hOlen, hLlen, hylen]
  · intro i
    rw [getD_vsub _ _ (by rw [hZlen, hOlen]), getD_vsub _ _ (by rw [hLlen, hylen]), hyw,
      getD_vadd _ _ (by rw [hOlen, hwlen]), hZ, getD_vsub _ _ (by rw [hLlen, hwlen])]
    ring


/-- The data used in the examples of this file: a model with a known constant operator and unknown
linear and input operators; a solver that answers with a fixed-pattern matrix of the right shape. -/
def exSolver : SolverI ℚ (Option (Nat × Nat)) where
  fit := fun _ D Z => match Z with
    | [] => (none, .error .value)
    | z :: _ => (some (z.length, D.ncols), .ok ())
  solve := fun s => match s with
    | none => .error .attribute
    | some (r, d) =>
      .ok ⟨r, d, (range r).map fun i : Nat => (range d).map fun j : Nat => (i + 2 * j + 1 : ℚ)⟩

theorem exSolver_shaped (r : Nat) : exSolver.Shaped r := by
  intro s D Z O hZ _ hO
  cases Z with
  | nil => simp [exSolver] at hO
  | cons z Z =>
    have hz := hZ z mem_cons_self
    simp only [exSolver, hz, Except.ok.injEq] at hO
    subst hO
    exact ⟨⟨by simp, by simp⟩, rfl, rfl⟩

def exModel : Model ℚ (Option (Nat × Nat)) where
  slots := [⟨⟨.lin, none⟩, true⟩, ⟨⟨.const, some ⟨2, 1, [[3], [5]]⟩⟩, false⟩, ⟨⟨.inp, none⟩, true⟩]
  hasInputs := true
  r := some 2
  m := none
  intrusive := false
  solver := some none

def exStates : Arg ℚ := .mat 2 [[1, 2], [3, 4], [5, 7]]
def exLhs : Arg ℚ := .mat 2 [[0, 1], [1, 0], [1, 1]]
def exInputs : Arg ℚ := .vec [1, 0, 2]

theorem exModel_inv : exModel.Inv := by
  refine ⟨?_, rfl, ?_, fun _ => rfl, fun _ => ⟨_, by simp [exModel]; left; rfl, rfl⟩⟩
  · intro s hs E hE
    simp only [exModel, mem_cons, not_mem_nil, or_false] at hs
    rcases hs with rfl | rfl | rfl
    · cases hE
    · cases hE
      exact ⟨by decide, 0, ⟨rfl, by decide⟩, rfl, rfl⟩
    · cases hE
  · intro s hs
    simp only [exModel, mem_cons, not_mem_nil, or_false] at hs
    rcases hs with rfl | rfl | rfl <;> simp

/-- The hypotheses of `C13_fit_residual` are satisfiable. -/
example : exModel.Inv ∧ (∀ r, exSolver.Shaped r) ∧ exModel.intrusive = false ∧ exStates.WF ∧ exLhs.WF ∧ exInputs.WF ∧
    0 < (atleast2d exStates).1 ∧ (exModel.fit exSolver exStates exLhs (some exInputs)).2 = .ok () :=
  ⟨exModel_inv, exSolver_shaped, rfl, by unfold Arg.WF; decide +kernel, by unfold Arg.WF; decide +kernel,
    by unfold Arg.WF; decide +kernel, by decide, by decide +kernel⟩

/-! ### C14 -/

/-- **C14.** Setting the operators to infer from any matrix of the right shape succeeds, leaves the
known operators unchanged and `operator_matrix` returns exactly that matrix. -/
theorem C14_extract_roundtrip {S : Type} [Field K] (M : Model K S) (r m : Nat) (hr : 0 < r)
    (hMr : M.r = some r) (hMm : M.m = some m)
    (hknown : ∀ s ∈ M.slots, s.infer = false → s.op.entries.isSome)
    (hex : ∃ s ∈ M.slots, s.infer = true) (O : Mat K) (hO : O.WF) (hOr : O.nrows = r)
    (hOc : O.ncols = (M.toInfer.map fun o => o.dim r m).sum) :
    (M.extract O).2 = .ok () ∧ (M.extract O).1.operatorMatrix = .ok O ∧
    (M.extract O).1.slots.filter (fun s => !s.infer) = M.slots.filter (fun s => !s.infer) ∧
    (M.extract O).1.slots.map Slot.infer = M.slots.map Slot.infer ∧
    (M.extract O).1.ops.map Op.kind = M.ops.map Op.kind := by
  have hdim : inferDim r m M.slots = O.ncols := by
    rw [hOc, inferDim, Model.toInfer, map_map]; rfl
  obtain ⟨e1, e2, e3, -⟩ := extractLoop_spec r m hr O hO hOr M.slots 0 (by rw [hdim]; simp)
  have hslots : (M.extract O).1.slots = (extractLoop r m O 0 M.slots).1 := by
    simp [Model.extract, hMr, hMm]
  obtain ⟨k1, k2, k3⟩ := slotStep_kinds e2
  refine ⟨by simp only [Model.extract, hMr, hMm, Option.getD_some]; exact e1, ?_,
    by rw [hslots, k3], by rw [hslots, k2], by rw [Model.ops, Model.ops, hslots, k1]⟩
  have htr : (M.extract O).1.checkTrained = .ok () := by
    have h1 : (M.extract O).1.r = some r := hMr
    have h2 : (M.extract O).1.m = some m := hMm
    rw [Model.checkTrained, h1, h2, if_neg (by simp), if_neg (by simp), if_neg]
    rw [Bool.not_eq_true, any_eq_false]
    intro o ho
    obtain ⟨sl, hsl, rfl⟩ := mem_map.mp ho
    rw [hslots] at hsl
    obtain ⟨t, ht, t1, t2, t3, t4⟩ := forall₂_mem_right e2 hsl
    cases hi : t.infer
    · rw [t3 hi]
      have := hknown t ht hi
      obtain ⟨E, hE⟩ := Option.isSome_iff_exists.mp this
      simp [hE]
    · obtain ⟨E, hE, -⟩ := t4 hi
      simp [hE]
  obtain ⟨n1, n2⟩ := sum_ncols e2
  rw [Model.operatorMatrix, htr, hslots]
  set Es := ((extractLoop r m O 0 M.slots).1.filter Slot.infer).filterMap fun s => s.op.entries
    with hEs
  have hne : Es ≠ [] := by
    obtain ⟨t, ht, hi⟩ := hex
    have : true ∈ (extractLoop r m O 0 M.slots).1.map Slot.infer := by
      rw [k2]; exact mem_map.mpr ⟨t, ht, hi⟩
    obtain ⟨b, hb, hbi⟩ := mem_map.mp this
    obtain ⟨t', -, t1, t2, t3, t4⟩ := forall₂_mem_right e2 hb
    obtain ⟨E, hE, -⟩ := t4 (t1 ▸ hbi)
    have : E ∈ Es := mem_filterMap.mpr ⟨b, mem_filter.mpr ⟨hb, hbi⟩, hE⟩
    exact ne_nil_of_mem this
  have hrows : O.rows.map (fun row => (row.drop 0).take (inferDim r m M.slots)) = O.rows := by
    conv_rhs => rw [← map_id O.rows]
    apply map_congr_left
    intro row hrow
    rw [drop_zero, hdim, id, take_of_length_le (le_of_eq (hO.2 row hrow))]
  rw [hrows] at e3
  clear_value Es
  cases Es with
  | nil => exact absurd rfl hne
  | cons E Es =>
    have hE : E.nrows = r := n2 E mem_cons_self
    rw [hdim] at n1
    show Except.ok (⟨E.nrows, ((E :: Es).map Mat.ncols).sum, hstack E.nrows ((E :: Es).map Mat.rows)⟩ : Mat K) = _
    rw [n1, hE, e3, ← hOr]

/-- **C14.** After a successful `fit`, `operator_matrix` is exactly the matrix the solver returned,
and the known operators are those of before. -/
theorem C14_fit_operator_matrix {S : Type} [Field K] (I : SolverI K S) (M : Model K S) (hM : M.Inv)
    (hint : M.intrusive = false) (states lhs : Arg K) (inputs : Option (Arg K)) (hs : states.WF)
    (hl : lhs.WF) (hin : ∀ a ∈ inputs, a.WF) (hr : 0 < (atleast2d states).1)
    (hI : I.Shaped (atleast2d states).1) (M' : Model K S)
    (hfit : M.fit I states lhs inputs = (M', .ok ())) :
    (∃ s', M'.solver = some s' ∧ M'.operatorMatrix = I.solve s') ∧
    M'.slots.filter (fun s => !s.infer) = M.slots.filter (fun s => !s.infer) ∧
    M'.slots.map Slot.infer = M.slots.map Slot.infer ∧
    M'.ops.map Op.kind = M.ops.map Op.kind := by
  obtain ⟨s, M1, Z, D, O, m, f1, f2, f3, f4, f5, f6, f7, f8, f9, f10, f11, f12, f13, f14, f15, f16,
    f17, f18, f19, f20, f21⟩ := fit_master I M hM hint states lhs inputs hs hl hin hI M' hfit
  have hknown : ∀ sl ∈ M1.slots, sl.infer = false → sl.op.entries.isSome := by
    intro sl hsl hi
    rw [f2] at hsl
    obtain ⟨t', ht', h1, h2, h3, h4⟩ := mem_clearSlots hsl
    rw [h4 (h1 ▸ hi)]
    exact hM.known t' ht' (h1 ▸ hi)
  have hex : ∃ sl ∈ M1.slots, sl.infer = true := by
    obtain ⟨t, ht, hi⟩ := hM.learn hint
    rw [f2]
    exact ⟨_, mem_map.mpr ⟨t, ht, rfl⟩, by simp [hi]⟩
  set M2 : Model K S := { M1 with solver := some (I.fit s D Z).1 } with hM2
  have hMM : M' = (M2.extract O).1 := by
    rw [f20]; simp [Model.extract, hM2, f5, f6]
  obtain ⟨-, c2, c3, c4, c5⟩ := C14_extract_roundtrip M2 (atleast2d states).1 m hr f5 f6 hknown hex O f11
    f12 (by rw [f13, f14, inferDim, Model.toInfer, map_map]; rfl)
  refine ⟨⟨(I.fit s D Z).1, by rw [f20], by rw [hMM, c2, f10]⟩, ?_, ?_, ?_⟩
  · rw [hMM, c3]; show M1.slots.filter _ = _; rw [f2, clearSlots_known]
  · rw [hMM, c4]; show M1.slots.map _ = _
    rw [f2, clearSlots, map_map]
    apply map_congr_left
    intro t _
    cases hi : t.infer <;> simp [hi]
  · rw [hMM, c5]; show M1.ops.map _ = _
    rw [Model.ops, f2, clearSlots, Model.ops, map_map, map_map, map_map]
    apply map_congr_left
    intro t _
    cases hi : t.infer <;> simp [hi, Op.clear]

/-- A concrete instance: the matrix the example solver answers is read back. -/
example : (exModel.fit exSolver exStates exLhs (some exInputs)).1.operatorMatrix
    = .ok ⟨2, 3, [[1, 3, 5], [2, 4, 6]]⟩ := by decide +kernel


/-! ### A failed fit, repeated fits -/

/-- **C59.** A `fit` that raises leaves nothing of an earlier fit behind: all operators to infer are
cleared, the known ones are untouched, and `operator_matrix` and `predict` raise `AttributeError`. -/
theorem C59_failed_fit_clears {S : Type} [Field K] (I : SolverI K S) (M : Model K S) (hM : M.Inv)
    (states lhs : Arg K) (inputs : Option (Arg K)) (hs : states.WF)
    (hl : lhs.WF) (hin : ∀ a ∈ inputs, a.WF) (hr : 0 < (atleast2d states).1)
    (hI : I.Shaped (atleast2d states).1) (M' : Model K S) (e : Err)
    (hfit : M.fit I states lhs inputs = (M', .error e)) :
    (∀ s ∈ M'.slots, s.infer = true → s.op.entries = none) ∧
    M'.slots.filter (fun s => !s.infer) = M.slots.filter (fun s => !s.infer) ∧
    M'.operatorMatrix = .error .attribute ∧
    ∀ q0 n u, M'.predict q0 n u = .error .attribute := by
  have hint : M.intrusive = false := by
    cases h : M.intrusive
    · rfl
    · rw [Model.fit, if_pos h] at hfit; simp at hfit
  obtain ⟨o1, o2, o3, o4, -⟩ := fit_outcome I M hM hint states lhs inputs hs hl hin hr hI M' _ hfit
  have hsl := o4 e rfl
  have htr : M'.checkTrained = .error .attribute := by
    rw [Model.checkTrained]
    split
    · rfl
    · split
      · rfl
      · rw [if_pos]
        obtain ⟨t, ht, hi⟩ := hM.learn hint
        rw [any_eq_true]
        refine ⟨t.op.clear, ?_, rfl⟩
        rw [Model.ops, hsl, clearSlots, map_map]
        exact mem_map.mpr ⟨t, ht, by simp [hi]⟩
  refine ⟨?_, by rw [hsl, clearSlots_known], ?_, ?_⟩
  · intro s h hi
    rw [hsl] at h
    obtain ⟨t, ht, h1, h2, h3, h4⟩ := mem_clearSlots h
    exact h3 (h1 ▸ hi)
  · rw [Model.operatorMatrix, htr]; rfl
  · intro q0 n u
    unfold Model.predict; rw [htr]; rfl

/-- A failing fit after a successful one (too few left-hand side columns). -/
example : ((exModel.fit exSolver exStates exLhs (some exInputs)).1.fit exSolver exStates
    (.mat 2 [[0, 1]]) (some exInputs)).2 = .error .dimensionality := by decide +kernel

/-! ### C60: fitting again -/

/-- Arguments of one call of `fit`. -/
structure FitCall (K : Type) where
  states : Arg K
  lhs : Arg K
  inputs : Option (Arg K)

def FitCall.WF (c : FitCall K) : Prop :=
  c.states.WF ∧ c.lhs.WF ∧ (∀ a ∈ c.inputs, a.WF) ∧ 0 < (atleast2d c.states).1

/-- The model object after a history of `fit` calls, failed ones included. -/
def Model.runFits {S : Type} [CommRing K] (I : SolverI K S) (M : Model K S)
    (calls : List (FitCall K)) : Model K S :=
  calls.foldl (fun M c => (M.fit I c.states c.lhs c.inputs).1) M

theorem runFits_sim {S : Type} [Field K] (I : SolverI K S) (M : Model K S) (hM : M.Inv)
    (hint : M.intrusive = false) (calls : List (FitCall K))
    (hc : ∀ c ∈ calls, c.WF ∧ I.Shaped (atleast2d c.states).1) :
    (M.runFits I calls).Sim M ∧ (M.runFits I calls).Inv ∧ (M.runFits I calls).intrusive = false := by
  induction calls generalizing M with
  | nil => exact ⟨⟨rfl, rfl, rfl⟩, hM, hint⟩
  | cons c calls ih =>
    obtain ⟨⟨w1, w2, w3, w4⟩, hI⟩ := hc c mem_cons_self
    have hinv := fit_inv I M hM c.states c.lhs c.inputs w1 w2 w3 w4 hI
    rcases hf : M.fit I c.states c.lhs c.inputs with ⟨M', x⟩
    obtain ⟨o1, o2, o3, o4, o5⟩ :=
      fit_outcome I M hM hint c.states c.lhs c.inputs w1 w2 w3 w4 hI M' x hf
    rw [hf] at hinv
    obtain ⟨i1, i2, i3⟩ := ih M' hinv o2 (fun c h => hc c (mem_cons_of_mem _ h))
    have hrun : M.runFits I (c :: calls) = M'.runFits I calls := by
      simp only [Model.runFits, foldl_cons, hf]
    have hsl : clearSlots M'.slots = clearSlots M.slots := by
      cases x with
      | error e => rw [o4 e rfl, clearSlots_idem]
      | ok _ =>
        obtain ⟨m, hst⟩ := o5 rfl
        rw [clearSlots_slotStep hst, clearSlots_idem]
    rw [hrun]
    exact ⟨⟨i1.slots.trans hsl, i1.inputs.trans o1, by rw [i3, hint]⟩, i2, i3⟩

/-- **C60.** Fitting a model object again gives what fitting it for the first time would have given:
after any history of (successful or failed) fits, on data of any dimension, the outcome of `fit`, the
operators and the dimensions are those of the same call on the original object, for every solver
whose solution depends only on its settings and on the data last given to it. -/
theorem C60_fit_forgets_history {S C : Type} [Field K] (I : SolverI K S) (cfg : S → C)
    (hI : I.Memoryless cfg)
    (M : Model K S) (hM : M.Inv) (hint : M.intrusive = false) (calls : List (FitCall K))
    (hc : ∀ c ∈ calls, c.WF ∧ I.Shaped (atleast2d c.states).1) (c : FitCall K) :
    ((M.runFits I calls).fit I c.states c.lhs c.inputs).2 = (M.fit I c.states c.lhs c.inputs).2 ∧
    ((M.runFits I calls).fit I c.states c.lhs c.inputs).1.slots
      = (M.fit I c.states c.lhs c.inputs).1.slots ∧
    ((M.fit I c.states c.lhs c.inputs).2 = .ok () →
      ((M.runFits I calls).fit I c.states c.lhs c.inputs).1.r = (M.fit I c.states c.lhs c.inputs).1.r ∧
      ((M.runFits I calls).fit I c.states c.lhs c.inputs).1.m
        = (M.fit I c.states c.lhs c.inputs).1.m) := by
  obtain ⟨hsim, hinv, hint'⟩ := runFits_sim I M hM hint calls hc
  have hk : ∀ N : Model K S, (N.processFitArgs c.states c.lhs c.inputs).1.solver = N.solver ∧
      (N.processFitArgs c.states c.lhs c.inputs).1.intrusive = N.intrusive := by
    intro N
    rcases hp : N.processFitArgs c.states c.lhs c.inputs with ⟨N1, x⟩
    obtain ⟨⟨-, -, b3, b4⟩, -⟩ := process_spec hp
    exact ⟨b4, b3⟩
  have hcfg : (M.runFits I calls).solver.map cfg = M.solver.map cfg := by
    clear hsim hinv hint' hc hM hint
    induction calls generalizing M with
    | nil => rfl
    | cons c calls ih =>
      have h1 : M.runFits I (c :: calls) = (M.fit I c.states c.lhs c.inputs).1.runFits I calls := rfl
      rw [h1, ih]
      refine fit_cfg I cfg hI M _ _ _ ?_
      rcases hp : M.processFitArgs c.states c.lhs c.inputs with ⟨N1, x⟩
      obtain ⟨⟨-, -, -, b4⟩, -⟩ := process_spec hp
      exact b4
  obtain ⟨f1, f2, f3⟩ := fit_sim I cfg hI hsim hcfg hint' (hinv.solver hint') (hM.solver hint) c.states c.lhs
    c.inputs (hk _).1 (hk _).1 (hk _).2
  exact ⟨f1, f2, fun h => f3 (f1.trans h)⟩

/-- The example solver meets the second contract as well; a history with a failed call and a call in
another dimension. -/
theorem exSolver_memoryless : exSolver.Memoryless (fun _ => ()) := by
  refine ⟨fun _ _ _ => rfl, fun s s' D Z _ => ?_⟩
  cases Z <;> exact ⟨rfl, fun _ => rfl⟩

example : (exModel.runFits exSolver [⟨exStates, .mat 2 [[0, 1]], none⟩,
    ⟨exStates, exLhs, some (.mat 2 [[1, 2], [0, 0], [1, 1]])⟩]).ops.map Op.inputDim
      = [none, none, some 2] := by decide +kernel

/-! ### C21: input arguments -/

theorem Op.apply_ignores [CommSemiring K] (o : Op K) (h : o.kind.hasInputs = false) (s : Arg K)
    (u u' : Option (Arg K)) : o.apply s u = o.apply s u' := by
  have key : ∀ u, o.apply s u = match o.entries with
      | none => .error .attribute
      | some E => o.kind.apply E s (.scalar 0) := by
    intro u
    unfold Op.apply
    cases o.entries with
    | none => rfl
    | some E =>
      cases u with
      | none =>
        cases hk : o.kind <;> first | rfl | (rw [hk] at h; simp [OpKind.hasInputs] at h)
      | some u => exact apply_ignores_input _ h _ _ _ _
  rw [key u, key u']

theorem subKnown_ignores [CommRing K] (r : Nat) (states : Arg K) (slots : List (Slot K))
    (h : ∀ s ∈ slots, s.op.kind.hasInputs = false) (u u' : Option (Arg K)) (lhs : List (List K)) :
    subKnown r states u slots lhs = subKnown r states u' slots lhs := by
  induction slots generalizing lhs with
  | nil => rfl
  | cons s slots ih =>
    simp only [subKnown]
    split
    · exact ih (fun s hs => h s (mem_cons_of_mem _ hs)) _
    · rw [s.op.apply_ignores (h s mem_cons_self) _ u u']
      congr 1; funext y
      congr 1; funext l
      exact ih (fun s hs => h s (mem_cons_of_mem _ hs)) _

theorem hasInputs_false {S : Type} {M : Model K S} (hM : M.Inv) (h : M.hasInputs = false) :
    ∀ o ∈ M.ops, o.kind.hasInputs = false := by
  have := hM.inputs
  rw [h] at this
  intro o ho
  simpa using any_eq_false.mp this.symm o ho

theorem process_ignores {S : Type} [CommRing K] (M : Model K S) (hM : M.Inv)
    (h : M.hasInputs = false) (states lhs : Arg K) (u u' : Option (Arg K)) :
    M.processFitArgs states lhs u = M.processFitArgs states lhs u' := by
  rw [Model.processFitArgs, Model.processFitArgs]
  have hcl : M.clear.1.slots = clearSlots M.slots ∧ M.clear.1.hasInputs = M.hasInputs := by
    rw [clear_eq]
    split
    · exact ⟨rfl, rfl⟩
    · split <;> exact ⟨rfl, rfl⟩
  generalize M.clear = c at hcl
  obtain ⟨M1, x⟩ := c
  simp only at hcl
  cases x with
  | error e => rfl
  | ok _ =>
    have hst : (if M1.r.isNone then M1.setStateDim (atleast2d states).1
          else (M1, Except.ok ())).1.slots = M1.slots ∧
        (if M1.r.isNone then M1.setStateDim (atleast2d states).1
          else (M1, Except.ok ())).1.hasInputs = M1.hasInputs := by
      rw [Model.setStateDim]
      split
      · split <;> exact ⟨rfl, rfl⟩
      · exact ⟨rfl, rfl⟩
    simp only
    generalize (if M1.r.isNone then M1.setStateDim (atleast2d states).1
          else (M1, Except.ok ())) = c at hst
    obtain ⟨M2, x⟩ := c
    simp only at hst
    cases x with
    | error e => rfl
    | ok _ =>
      have hin : M2.hasInputs = false := by rw [hst.2, hcl.2, h]
      have hchk : ∀ v : Option (Arg K), M2.checkInputArgs v = .ok () := by
        intro v; simp [Model.checkInputArgs, hin]
      have hsub := subKnown_ignores (atleast2d states).1
        (.mat (atleast2d states).1 (atleast2d states).2) M2.slots (by
          rw [hst.1, hcl.1]
          intro s hs
          obtain ⟨t, ht, h1, h2, -⟩ := mem_clearSlots hs
          rw [h2]
          exact hasInputs_false hM h _ (mem_map.mpr ⟨t, ht, rfl⟩)) u u' (atleast2d lhs).2
      simp only [hchk, hin, hsub, Bool.false_eq_true, if_false]

/-- **C21.** Without operators that use inputs, `fit` does not depend on the `inputs` argument. -/
theorem C21_fit_ignores_inputs {S : Type} [CommRing K] (I : SolverI K S) (M : Model K S) (hM : M.Inv)
    (h : M.ops.all (fun o => !o.kind.hasInputs) = true) (states lhs : Arg K)
    (u u' : Option (Arg K)) : M.fit I states lhs u = M.fit I states lhs u' := by
  have hin : M.hasInputs = false := by
    rw [hM.inputs, any_eq_false]
    intro o ho
    simpa using (all_eq_true.mp h) o ho
  simp only [Model.fit, Model.fitSolver, process_ignores M hM hin states lhs u u']

/-- **C21.** With an operator that uses inputs, `fit` without inputs raises; and if the call would
have succeeded with some inputs, what it raises is `ValueError`. -/
theorem C21_fit_requires_inputs {S : Type} [Field K] (I : SolverI K S) (M : Model K S) (hM : M.Inv)
    (hint : M.intrusive = false) (h : ∃ o ∈ M.ops, o.kind.hasInputs = true) (states lhs : Arg K) :
    (M.fit I states lhs none).2 ≠ .ok () ∧
    ∀ a, (M.fit I states lhs (some a)).2 = .ok () → (M.fit I states lhs none).2 = .error .value := by
  have hin : M.hasInputs = true := by
    rw [hM.inputs, any_eq_true]
    exact h
  constructor
  · intro hok
    rw [Model.fit, if_neg (by simp [hint]), Model.fitSolver] at hok
    rcases hp : M.processFitArgs states lhs none with ⟨M1, x⟩
    rw [hp] at hok
    cases x with
    | error e => simp at hok
    | ok t =>
      obtain ⟨Q, Z, U⟩ := t
      obtain ⟨-, -, -, -, -, hh, -⟩ := (process_spec hp).2 Q Z U rfl
      obtain ⟨a, ha, -⟩ := hh hin
      cases ha
  · intro a hok
    have key : ∀ e, (M.processFitArgs states lhs none).2 = .error e →
        (M.fit I states lhs none).2 = .error e := by
      intro e he
      rw [Model.fit, if_neg (by simp [hint]), Model.fitSolver]
      rcases hp : M.processFitArgs states lhs none with ⟨M1, x⟩
      rw [hp] at he
      simp only at he
      rw [he]
    apply key
    have hok' : ∃ t, (M.processFitArgs states lhs (some a)).2 = .ok t := by
      rw [Model.fit, if_neg (by simp [hint]), Model.fitSolver] at hok
      rcases hp : M.processFitArgs states lhs (some a) with ⟨M1, x⟩
      rw [hp] at hok
      cases x with
      | error e => simp at hok
      | ok t => exact ⟨t, rfl⟩
    obtain ⟨t, ht⟩ := hok'
    rw [Model.processFitArgs] at ht ⊢
    have hcl : M.clear.1.hasInputs = M.hasInputs := by
      rw [clear_eq]
      split
      · rfl
      · split <;> rfl
    generalize M.clear = c at hcl ht
    obtain ⟨M1, x⟩ := c
    simp only at hcl
    cases x with
    | error e => simp at ht
    | ok _ =>
      have hst : (if M1.r.isNone then M1.setStateDim (atleast2d states).1
            else (M1, Except.ok ())).1.hasInputs = M1.hasInputs := by
        rw [Model.setStateDim]
        split
        · split <;> rfl
        · rfl
      simp only at ht ⊢
      generalize (if M1.r.isNone then M1.setStateDim (atleast2d states).1
            else (M1, Except.ok ())) = c at hst ht
      obtain ⟨M2, x⟩ := c
      simp only at hst
      cases x with
      | error e => simp at ht
      | ok _ =>
        simp only at ht ⊢
        split at ht
        · simp at ht
        · rename_i g1
          rw [if_neg g1]
          split at ht
          · simp at ht
          · rename_i g2
            rw [if_neg g2]
            split at ht
            · simp at ht
            · rename_i g3
              rw [if_neg g3]
              have : M2.checkInputArgs (none : Option (Arg K)) = .error .value := by
                rw [Model.checkInputArgs, if_pos ⟨by rw [hst, hcl, hin], rfl⟩]
              rw [this]

example : (∃ o ∈ exModel.ops, o.kind.hasInputs = true) ∧
    (exModel.fit exSolver exStates exLhs (some exInputs)).2 = .ok () ∧
    (exModel.fit exSolver exStates exLhs none).2 = .error .value :=
  ⟨⟨⟨.inp, none⟩, by decide, rfl⟩, by decide +kernel, by decide +kernel⟩

/-- **C21.** Without operators that use inputs, `rhs` and `predict` do not depend on the inputs. -/
theorem C21_rhs_ignores_inputs {S : Type} [CommSemiring K] (M : Model K S)
    (h : ∀ o ∈ M.ops, o.kind.hasInputs = false) (q : List K) (u u' : Option (List K)) :
    M.rhs q u = M.rhs q u' := by
  rw [Model.rhs, Model.rhs]
  generalize replicate q.length (0 : K) = acc
  generalize M.ops = ops at h
  induction ops generalizing acc with
  | nil => rfl
  | cons o ops ih =>
    simp only [foldlM_cons]
    rw [o.apply_ignores (h o mem_cons_self) _ (u.map .vec) (u'.map .vec)]
    congr 1; funext acc'
    exact ih acc' (fun o ho => h o (mem_cons_of_mem _ ho))

theorem C21_predict_ignores_inputs {S : Type} [CommSemiring K] (M : Model K S) (hM : M.Inv)
    (h : ∀ o ∈ M.ops, o.kind.hasInputs = false) (q0 : List K) (n : Int) (u u' : PredInput K) :
    M.predict q0 n u = M.predict q0 n u' := by
  have hin : M.hasInputs = false := by
    rw [hM.inputs, any_eq_false]
    intro o ho
    simp [h o ho]
  unfold Model.predict
  simp only [hin, Bool.false_eq_true, false_and, if_false]

/-- **C21.** With an operator that uses inputs, `rhs` of a trained model without an input raises, and
`predict` without inputs raises (`ValueError`, unless the model is untrained or the initial state has
the wrong size). -/
theorem C21_rhs_requires_input {S : Type} [CommSemiring K] (M : Model K S)
    (h : ∃ o ∈ M.ops, o.kind.hasInputs = true) (q : List K) :
    ∃ e, M.rhs q none = .error e := by
  rw [Model.rhs]
  generalize replicate q.length (0 : K) = acc
  generalize M.ops = ops at h
  induction ops generalizing acc with
  | nil => obtain ⟨o, ho, -⟩ := h; cases ho
  | cons o ops ih =>
    simp only [foldlM_cons]
    cases hv : (do addInto acc (← o.apply (.vec q) ((none : Option (List K)).map .vec)) : Except Err (List K)) with
    | error e => exact ⟨e, rfl⟩
    | ok acc' =>
      obtain ⟨o', ho', hi⟩ := h
      rcases mem_cons.mp ho' with rfl | ho'
      · exfalso
        unfold Op.apply at hv
        cases hE : o'.entries with
        | none => simp [hE] at hv; cases hv
        | some E =>
          cases hk : o'.kind with
          | inp =>
            simp only [hE, hk, Option.map_none] at hv
            split at hv <;> cases hv
          | stateInp =>
            simp only [hE, hk, Option.map_none] at hv
            cases hv
          | const => rw [hk] at hi; cases hi
          | lin => rw [hk] at hi; cases hi
          | kron k => rw [hk] at hi; cases hi
      · exact ih acc' ⟨o', ho', hi⟩

theorem C21_predict_requires_inputs {S : Type} [CommSemiring K] (M : Model K S) (hM : M.Inv)
    (h : ∃ o ∈ M.ops, o.kind.hasInputs = true) (q0 : List K) (n : Int) :
    (M.checkTrained = .ok () → some q0.length = M.r → M.predict q0 n .none = .error .value) ∧
    ∃ e, M.predict q0 n .none = .error e := by
  have hin : M.hasInputs = true := by
    rw [hM.inputs, any_eq_true]
    exact h
  have key : M.checkTrained = .ok () → some q0.length = M.r → M.predict q0 n .none = .error .value := by
    intro h1 h2
    unfold Model.predict
    rw [h1]
    rw [if_neg (by simp [h2])]
    simp only [bind, Except.bind, hin, PredInput.isNone, and_self, if_true]
    rfl
  refine ⟨key, ?_⟩
  cases h1 : M.checkTrained with
  | error e =>
    refine ⟨e, ?_⟩
    unfold Model.predict
    rw [h1]; rfl
  | ok _ =>
    by_cases h2 : some q0.length = M.r
    · exact ⟨_, key h1 h2⟩
    · refine ⟨.dimensionality, ?_⟩
      unfold Model.predict
      rw [h1]
      simp only [bind, Except.bind, ne_eq, h2, not_false_eq_true, if_true]
      rfl

end Opinf
