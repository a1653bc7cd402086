import Verif.Props.FitOptimal
import Verif.Props.Predict
import Verif.Props.ModelCopy
import Verif.Lemmas.FiniteDiff

/-!
# C63, C64: training discrete-time models on a trajectory
-/

namespace Opinf

open List

variable {K : Type}

theorem vsub_self' [CommRing K] (a : List K) : vsub a a = replicate a.length 0 := by
  induction a with
  | nil => rfl
  | cons x a ih => rw [vsub, zipWith_cons_cons, ← vsub, ih, sub_self]; rfl

theorem atleast2d_takeCols (k : Nat) (a : Arg K) (h : ∀ x, a ≠ .scalar x) :
    atleast2d (a.takeCols k) = ((atleast2d a).1, (atleast2d a).2.take k) := by
  cases a with
  | scalar x => exact absurd rfl (h x)
  | vec xs => simp [Arg.takeCols, atleast2d, map_take]
  | mat n cols => rfl

theorem inputAt_takeCols (k : Nat) (inputs : Option (Arg K)) (h : ∀ x, inputs ≠ some (.scalar x)) (j : Nat)
    (hj : j < k) : inputAt (inputs.map (Arg.takeCols k)) j = inputAt inputs j := by
  cases inputs with
  | none => rfl
  | some a =>
    have ha : ∀ x, a ≠ .scalar x := fun x hx => h x (by rw [hx])
    simp only [inputAt, Option.map_some, atleast2d_takeCols k a ha]
    rw [getD_eq_getElem?_getD, getElem?_take, if_pos hj, ← getD_eq_getElem?_getD]

theorem fitDiscrete_eq {S : Type} [CommRing K] (I : SolverI K S) (M : Model K S) (n : Nat)
    (X : List (List K)) (inputs : Option (Arg K)) (h : ∀ x, inputs ≠ some (.scalar x)) :
    M.fitDiscrete I n X none inputs =
      M.fit I (.mat n (X.take (X.length - 1))) (.mat n (X.drop 1))
        (inputs.map (Arg.takeCols (X.take (X.length - 1)).length)) := by
  have e1 : pySlice 0 (some (-1)) X = X.take (X.length - 1) := pySlice_fwd 1 (by omega) X
  have e2 : pySlice 1 none X = X.drop 1 := pySlice_bwd 1 X
  unfold Model.fitDiscrete
  simp only [e1, e2]

theorem getD_take_lt {α : Type} (l : List α) (k j : Nat) (d : α) (h : j < k) :
    (l.take k).getD j d = l.getD j d := by
  rw [getD_eq_getElem?_getD, getElem?_take, if_pos h, ← getD_eq_getElem?_getD]

theorem getD_drop' {α : Type} (l : List α) (k j : Nat) (d : α) :
    (l.drop k).getD j d = l.getD (k + j) d := by
  rw [getD_eq_getElem?_getD, getElem?_drop, ← getD_eq_getElem?_getD]

/-- **C63.** `DiscreteModel.fit(states, inputs=inputs)` without next states pairs each state with its
successor and with the input at the same position: the residual the solver minimises in column `j` is
`states[:, j+1] − rhs(states[:, j], inputs[:, j])`, for every `j` but the last. Inputs beyond those
positions are ignored. -/
theorem C63_discrete_fit_residual {S : Type} [Field K] (I : SolverI K S) (M : Model K S) (hM : M.Inv)
    (hint : M.intrusive = false) (n : Nat) (hn : 0 < n) (X : List (List K)) (hX : ∀ x ∈ X, x.length = n)
    (inputs : Option (Arg K)) (hin : ∀ a ∈ inputs, a.WF) (hI : I.Shaped n) (M' : Model K S)
    (hfit : M.fitDiscrete I n X none inputs = (M', .ok ())) :
    ∃ (s : S) (D O : Mat K) (Z : List (List K)),
      M.solver = some s ∧ M'.solver = some (I.fit s D Z).1 ∧ I.solve (I.fit s D Z).1 = .ok O ∧
      M'.operatorMatrix = .ok O ∧ D.rows.length = X.length - 1 ∧ Z.length = X.length - 1 ∧
      ∀ j, j + 1 < X.length → ∃ y, M'.rhs (X.getD j []) (inputAt inputs j) = .ok y ∧
        vsub (Z.getD j []) (matVec O.rows (D.rows.getD j [])) = vsub (X.getD (j + 1) []) y := by
  have hns : ∀ x, inputs ≠ some (.scalar x) := by
    rintro x rfl
    simp [Model.fitDiscrete] at hfit
  rw [fitDiscrete_eq I M n X inputs hns] at hfit
  have hlen : (X.take (X.length - 1)).length = X.length - 1 := by simp
  have hs : (Arg.mat n (X.take (X.length - 1))).WF := fun c hc => hX c (mem_of_mem_take hc)
  have hl : (Arg.mat n (X.drop 1)).WF := fun c hc => hX c (mem_of_mem_drop hc)
  have hin' : ∀ a ∈ inputs.map (Arg.takeCols (X.take (X.length - 1)).length), a.WF := by
    intro a ha
    cases inputs with
    | none => cases ha
    | some b =>
      rw [Option.map_some, Option.mem_some_iff] at ha
      subst ha
      have hb : ∀ x, b ≠ .scalar x := fun x hx => hns x (by rw [hx])
      intro c hc
      rw [atleast2d_takeCols _ b hb] at hc ⊢
      exact hin b rfl c (mem_of_mem_take hc)
  obtain ⟨s, D, O, Z, c1, c2, c3, c4, c5, c6, -, -, -, -, -, -, -, hj⟩ :=
    C13_fit_residual I M hM hint _ _ _ hs hl hin' hn hI M' hfit
  obtain ⟨⟨s2, hs2, hop⟩, -⟩ := C14_fit_operator_matrix I M hM hint _ _ _ hs hl hin' hn hI M' hfit
  rw [c2] at hs2
  injection hs2 with hs2
  rw [← hs2, c3] at hop
  refine ⟨s, D, O, Z, c1, c2, c3, hop, c4.trans hlen, c5.trans hlen, fun j h => ?_⟩
  have hj' : j < (X.take (X.length - 1)).length := by rw [hlen]; omega
  obtain ⟨-, y, w, k1, -, -, -, k5⟩ := hj j hj'
  refine ⟨y, ?_, ?_⟩
  · rw [inputAt_takeCols _ inputs hns j hj'] at k1
    simp only [atleast2d] at k1
    rwa [getD_take_lt _ _ _ _ (by omega)] at k1
  · rw [k5]
    simp only [atleast2d]
    rw [getD_drop', Nat.add_comm 1 j]

/-- **C63** (explicit next states and error branch): with next states given they are the targets, and a
scalar input raises. -/
theorem C63_discrete_fit_explicit {S : Type} [CommRing K] (I : SolverI K S) (M : Model K S) (n : Nat)
    (X : List (List K)) (nx : Arg K) :
    M.fitDiscrete I n X (some nx) none = M.fit I (.mat n X) nx none ∧
    (∀ a : Arg K, (∀ x, a ≠ .scalar x) →
      M.fitDiscrete I n X (some nx) (some a) = M.fit I (.mat n X) nx (some (a.takeCols X.length))) ∧
    ∀ x, M.fitDiscrete I n X (some nx) (some (.scalar x)) = (M, .error .type) := by
  refine ⟨rfl, ?_, fun x => rfl⟩
  intro a ha
  cases a with
  | scalar x => exact absurd rfl (ha x)
  | vec xs => rfl
  | mat m c => rfl

theorem fit_input_length {S : Type} [Field K] (I : SolverI K S) (M : Model K S)
    (hint : M.intrusive = false) (hM : M.hasInputs = true) (states lhs : Arg K) (inputs : Option (Arg K))
    (M' : Model K S) (hfit : M.fit I states lhs inputs = (M', .ok ())) (a : Arg K) (ha : inputs = some a) :
    (atleast2d a).2.length = (atleast2d states).2.length := by
  rw [Model.fit, if_neg (by simp [hint]), Model.fitSolver] at hfit
  generalize hp : M.processFitArgs states lhs inputs = p at hfit
  obtain ⟨M1, x⟩ := p
  cases x with
  | error e => simp at hfit
  | ok t =>
    obtain ⟨Q, Z, U⟩ := t
    obtain ⟨-, hproc⟩ := process_spec hp
    obtain ⟨-, p2, -, -, -, p6, -⟩ := hproc Q Z U rfl
    obtain ⟨b, hb, -, -, hl, -⟩ := p6 hM
    rw [ha] at hb
    injection hb with hb
    rw [hb, hl, p2]

section

variable [Field K] [LinearOrder K] [IsStrictOrderedRing K]

omit [LinearOrder K] [IsStrictOrderedRing K] in
theorem trained_check {S : Type} {M : Model K S} {r m : Nat} (h : M.Trained r m) :
    M.checkTrained = .ok () := by
  unfold Model.checkTrained
  rw [if_neg (by simp [h.dim]), if_neg (by simp [h.inputs]), if_neg]
  rw [Bool.not_eq_true, any_eq_false]
  intro o ho
  obtain ⟨E, hE, -⟩ := h.cal o ho
  simp [hE]

omit [LinearOrder K] [IsStrictOrderedRing K] in
theorem snapshotLoss_exact (k : Nat) (lhs : List (List K)) (y : Nat → List K)
    (h : ∀ j, j < k → y j = lhs.getD j []) : snapshotLoss k lhs y = 0 := by
  rw [snapshotLoss, sum_range_list]
  apply Finset.sum_eq_zero
  intro j hj
  rw [h j (Finset.mem_range.mp hj), vsub_self', sumSq_replicate_zero]

theorem snapshotLoss_zero (k : Nat) (lhs : List (List K)) (y : Nat → List K)
    (hl : ∀ j, j < k → (y j).length = (lhs.getD j []).length) (h : snapshotLoss k lhs y ≤ 0) :
    ∀ j, j < k → y j = lhs.getD j [] := by
  intro j hj
  rw [snapshotLoss, sum_range_list] at h
  have h0 : ∀ i ∈ Finset.range k, 0 ≤ sumSq (vsub (lhs.getD i []) (y i)) := fun i _ => sumSq_nonneg _
  have h1 : sumSq (vsub (lhs.getD j []) (y j)) = 0 :=
    (Finset.sum_eq_zero_iff_of_nonneg h0).mp (le_antisymm h (Finset.sum_nonneg h0)) j
      (Finset.mem_range.mpr hj)
  have h2 := sumSq_eq_zero _ h1
  rw [length_vsub, hl j hj, min_self] at h2
  exact (vsub_eq_zero _ _ (hl j hj).symm h2).symm

/-- **C64.** If the training trajectory follows *some* choice of the operators to be learned exactly,
then a discrete model trained on it with a `PlainSolver` reproduces it: `predict` from the first state
with as many steps and the same inputs returns the training trajectory. -/
theorem C64_discrete_reproduces (lstsq : Mat K → Mat K → Except Err (Mat K))
    (hls : ∀ A B X, lstsq A B = .ok X → IsLstsq A B X) (M : Model K (Plain K)) (hM : M.Inv)
    (hint : M.intrusive = false) (n : Nat) (hn : 0 < n) (X : List (List K)) (hX : ∀ x ∈ X, x.length = n)
    (inputs : Option (Arg K)) (hin : ∀ a ∈ inputs, a.WF) (M' : Model K (Plain K))
    (hfit : M.fitDiscrete (plainSolver lstsq) n X none inputs = (M', .ok ()))
    (O : Mat K) (hO : O.WF) (hOr : O.nrows = n)
    (hOc : O.ncols = (M.toInfer.flatMap fun o =>
      o.dataCol (X.getD 0 []) ((inputAt inputs 0).getD [])).length)
    (hex : ∀ j, j + 1 < X.length → ∃ w, M.knownPart.rhs (X.getD j []) (inputAt inputs j) = .ok w ∧
      X.getD (j + 1) [] = vadd (matVec O.rows (M.toInfer.flatMap fun o =>
        o.dataCol (X.getD j []) ((inputAt inputs j).getD []))) w) :
    M'.predict (X.getD 0 []) X.length (inputs.elim .none .arr) = .ok X := by
  have hns : ∀ x, inputs ≠ some (.scalar x) := by
    rintro x rfl
    simp [Model.fitDiscrete] at hfit
  rw [fitDiscrete_eq _ M n X inputs hns] at hfit
  have hlen : (X.take (X.length - 1)).length = X.length - 1 := by simp
  have hs : (Arg.mat n (X.take (X.length - 1))).WF := fun c hc => hX c (mem_of_mem_take hc)
  have hl : (Arg.mat n (X.drop 1)).WF := fun c hc => hX c (mem_of_mem_drop hc)
  have hin' : ∀ a ∈ inputs.map (Arg.takeCols (X.take (X.length - 1)).length), a.WF := by
    intro a ha
    cases inputs with
    | none => cases ha
    | some b =>
      rw [Option.map_some, Option.mem_some_iff] at ha
      subst ha
      have hb : ∀ x, b ≠ .scalar x := fun x hx => hns x (by rw [hx])
      intro c hc
      rw [atleast2d_takeCols _ b hb] at hc ⊢
      exact hin b rfl c (mem_of_mem_take hc)
  have hsh := plainSolver_shaped lstsq
    (fun A B X h => ⟨(hls A B X h).wf, (hls A B X h).rows, (hls A B X h).cols⟩) n
  obtain ⟨P, y, w, hopt⟩ := C62_plain_fit_is_optimal lstsq hls M hM hint _ _ _ hs hl hin' hn M' hfit
  obtain ⟨m, htr, hm⟩ := C20_fit_trains _ M hM hint _ _ _ hs hl hin' hn hsh M' hfit
  -- at least one pair of snapshots
  have hpos : 0 < X.length - 1 := by
    by_contra hc
    have h0 : X.length - 1 = 0 := by omega
    obtain ⟨s, D, P', Z, -, -, -, -, c5, -, c7, -⟩ :=
      C13_fit_residual _ M hM hint _ _ _ hs hl hin' hn hsh M' hfit
    have : Z = [] := by
      rw [← length_eq_zero_iff, c5]; simp [atleast2d, h0]
    rw [this] at c7
    simp [plainSolver] at c7
  have hk : (atleast2d (Arg.mat n (X.take (X.length - 1)))).2.length = X.length - 1 := hlen
  have hst : ∀ j, j < X.length - 1 →
      (atleast2d (Arg.mat n (X.take (X.length - 1)))).2.getD j [] = X.getD j [] :=
    fun j hj => getD_take_lt _ _ _ _ hj
  have hlh : ∀ j, (atleast2d (Arg.mat n (X.drop 1))).2.getD j [] = X.getD (j + 1) [] := fun j => by
    simp only [atleast2d]; rw [getD_drop', Nat.add_comm 1 j]
  have hia : ∀ j, j < X.length - 1 →
      inputAt (inputs.map (Arg.takeCols (X.take (X.length - 1)).length)) j = inputAt inputs j :=
    fun j hj => inputAt_takeCols _ inputs hns j (by rw [hlen]; exact hj)
  have hout : ∀ j, j < X.length - 1 → M'.rhs (X.getD j []) (inputAt inputs j) = .ok (y j) ∧
      M.knownPart.rhs (X.getD j []) (inputAt inputs j) = .ok (w j) := by
    intro j hj
    have := hopt.output j (by rw [hk]; exact hj)
    rwa [hst j hj, hia j hj] at this
  have hXl : ∀ j, j < X.length → (X.getD j []).length = n := fun j hj => by
    rw [getD_eq_getElem _ _ hj]; exact hX _ (getElem_mem _)
  have hle := hopt.optimal O hO (hOr.trans hopt.nrows.symm) (by
    rw [← hopt.ncols 0 (by rw [hk]; exact hpos), hst 0 hpos, hia 0 hpos]; exact hOc)
  rw [add_zero, add_zero, hk, snapshotLoss_exact (X.length - 1) _ (outputWith M O _ _ w)] at hle
  · have hy := snapshotLoss_zero (X.length - 1) _ y (by
      intro j hj
      rw [hlh, hXl _ (by omega), rhs_length M' (hout j hj).1]
      exact hXl _ (by omega)) hle
    rw [C15_predict_iff]
    refine ⟨trained_check htr, by rw [hXl 0 (by omega), htr.dim]; rfl, by omega, ?_, by simp, rfl, ?_⟩
    · intro hi
      have hMi : M.hasInputs = true := by
        obtain ⟨s, M1, Z, D, O, m, f1, f2, f3, f4, f5, f6, f7, f8, f9, f10, f11, f12, f13, f14, f15, f16,
          f17, f18, f19, f20, f21⟩ := fit_master _ M hM hint _ _ _ hs hl hin' hsh M' hfit
        rw [f20] at hi
        exact f3 ▸ hi
      obtain ⟨a, ha, ham⟩ := hm hMi
      cases inputs with
      | none => cases ha
      | some b =>
        rw [Option.map_some, Option.some.injEq] at ha
        have hb : ∀ x, b ≠ .scalar x := fun x hx => hns x (by rw [hx])
        have hlb := fit_input_length _ M hint hMi _ _ _ M' hfit _ rfl
        rw [hk, atleast2d_takeCols _ b hb, length_take] at hlb
        rw [← ha, atleast2d_takeCols _ b hb] at ham
        simp only at hlb ham
        refine ⟨by rw [ham, htr.inputs], ?_⟩
        rw [Int.toNat_natCast]
        omega
    · intro j hj
      rw [Int.toNat_natCast] at hj
      have h1 := (hout j (by omega)).1
      rw [hy j (by omega), hlh] at h1
      by_cases hi : M'.hasInputs = true
      · cases inputs with
        | none => rw [hi]; exact h1
        | some b => rw [hi]; exact h1
      · rw [← h1]
        apply C21_rhs_ignores_inputs
        intro o ho
        have := htr.inv.inputs
        rw [Bool.not_eq_true] at hi
        rw [hi] at this
        simpa using (any_eq_false.mp this.symm) o ho
  · intro j hj
    obtain ⟨w', h1, h2⟩ := hex j (by omega)
    rw [hlh, outputWith, hst j hj, hia j hj, h2]
    rw [(hout j hj).2] at h1
    injection h1 with h1
    rw [h1]

end

/-! ### Examples -/

/-- A least-squares routine restricted to one problem. -/
def exLs (A B : Mat ℚ) : Except Err (Mat ℚ) :=
  if A = ⟨2, 1, [[1], [2]]⟩ ∧ B = ⟨2, 1, [[2], [4]]⟩ then .ok ⟨1, 1, [[2]]⟩ else .error .linalg

theorem exLs_spec (A B X : Mat ℚ) (h : exLs A B = .ok X) : IsLstsq A B X := by
  unfold exLs at h
  split at h
  · rename_i hc
    obtain ⟨rfl, rfl⟩ := hc
    injection h with h
    subst h
    refine ⟨by decide, rfl, rfl, ?_⟩
    intro j hj
    obtain rfl : j = 0 := by simp at hj; exact hj
    refine ⟨rfl, fun o' _ => ?_⟩
    have : sumSq (vsub (matVec [[1], [2]] (col [[(2 : ℚ)]] 0)) (col [[2], [4]] 0)) = 0 := by decide +kernel
    simp only
    rw [this]
    exact sumSq_nonneg _
  · cases h

def exScalar : Model ℚ (Plain ℚ) where
  slots := [⟨⟨.lin, none⟩, true⟩]
  hasInputs := false
  r := none
  m := some 0
  intrusive := false
  solver := some ⟨none⟩

theorem exScalar_inv : exScalar.Inv := by
  refine ⟨?_, rfl, ?_, fun _ => rfl, fun _ => ⟨_, by simp [exScalar]; rfl, rfl⟩⟩
  · intro s hs E hE
    simp only [exScalar, mem_singleton] at hs
    subst hs
    cases hE
  · intro s hs
    simp only [exScalar, mem_singleton] at hs
    subst hs
    simp

/-- C62, C63 and C64 apply to the trajectory 1, 2, 4 of the doubling map. -/
example : (exScalar.fitDiscrete (plainSolver exLs) 1 [[1], [2], [4]] none none).2 = .ok () ∧
    (exScalar.fitDiscrete (plainSolver exLs) 1 [[1], [2], [4]] none none).1.predict [1] 3 .none =
      .ok [[1], [2], [4]] := by
  have h1 : (exScalar.fitDiscrete (plainSolver exLs) 1 [[1], [2], [4]] none none).2 = .ok () := by
    decide +kernel
  refine ⟨h1, ?_⟩
  have := C64_discrete_reproduces exLs exLs_spec exScalar exScalar_inv rfl 1 (by omega) [[1], [2], [4]]
    (by decide) none (by simp) _ (Prod.ext rfl h1) ⟨1, 1, [[2]]⟩ (by decide) rfl (by decide +kernel) ?_
  · exact this
  · intro j hj
    simp only [length_cons, length_nil] at hj
    obtain rfl | rfl : j = 0 ∨ j = 1 := by omega
    · exact ⟨[0], by decide +kernel, by decide +kernel⟩
    · exact ⟨[0], by decide +kernel, by decide +kernel⟩

/-- A positive-definite solve restricted to one problem. -/
def exPs (A B : Mat ℚ) : Except Err (Mat ℚ) :=
  if A = ⟨1, 1, [[6]]⟩ ∧ B = ⟨1, 1, [[10]]⟩ then .ok ⟨1, 1, [[5 / 3]]⟩ else .error .linalg

theorem exPs_spec (A B X : Mat ℚ) (h : exPs A B = .ok X) : IsSolution A B X := by
  unfold exPs at h
  split at h
  · rename_i hc
    obtain ⟨rfl, rfl⟩ := hc
    injection h with h
    subst h
    refine ⟨by decide, rfl, rfl, ?_⟩
    intro j hj
    obtain rfl : j = 0 := by simp at hj; exact hj
    decide +kernel
  · cases h

/-- C62 with `TikhonovSolver`: hypotheses are met and training succeeds. -/
example : let M : Model ℚ (Tik (Mat ℚ) ℚ) :=
      { slots := [⟨⟨.lin, none⟩, true⟩], hasInputs := false, r := none, m := some 0, intrusive := false,
        solver := some { reg := some ⟨1, 1, [[1]]⟩, method := .normal, data := none, pre := none } }
    (∀ s ∈ M.solver, ∀ G ∈ s.reg, G.WF) ∧
    (M.fit (tikSolver (fun _ _ => .error .linalg) exPs) (.mat 1 [[1], [2]]) (.mat 1 [[2], [4]]) none).2
      = .ok () := by
  refine ⟨?_, by decide +kernel⟩
  intro s hs G hG
  simp only [Option.mem_some_iff] at hs
  subst hs
  simp only [Option.mem_some_iff] at hG
  subst hG
  decide

/-- C62 with `L2Solver`: the decomposition meets the contract and training succeeds. -/
example : (∀ D u, exSvd D = .ok u → IsSVD D u) ∧
    (({ slots := [⟨⟨.lin, none⟩, true⟩], hasInputs := false, r := none, m := some 0, intrusive := false,
        solver := some ⟨some 1, none, none⟩ } : Model ℚ (L2 ℚ ℚ)).fit (l2Solver exSvd)
      (.mat 2 [[3, 0], [0, 4], [0, 0]]) (.mat 2 [[1, 0], [2, 1], [3, 5]]) none).2 = .ok () := by
  refine ⟨?_, by decide +kernel⟩
  intro D u h
  unfold exSvd at h
  split at h
  · rename_i hc
    injection h with h
    rw [hc, ← h]
    exact exU_isSVD
  · cases h

end Opinf
