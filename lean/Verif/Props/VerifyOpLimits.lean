import Verif.Props.VerifyOpAccept
import Mathlib.Analysis.Real.Sqrt

/-!
# C94: what `verify()` of an operator does not notice, and correct operators that it refuses
-/

namespace Opinf

open List

variable {K O : Type}

section

variable [Field K] [LinearOrder K] [IsStrictOrderedRing K]

/-- C94: the values of `jacobian()` are not compared with anything if it returns the number zero, as the default
implementation does: whatever the operator, replacing its Jacobian by zero keeps it accepted. -/
theorem C94_zero_jacobian_accepted {sqrt : K → K} (hs : SquareRoot sqrt)
    (lu : List (List K) → List K → Except Err (List K)) {tol : K} (ht : 0 ≤ tol) (I : OperI K O) (o : O)
    (d : OpDraw K) (k : Nat) (fs : FS K) (h : (I.verify sqrt lu o d k tol fs).2 = .ok ()) :
    (({ I with jacobian := fun _ _ _ => .ok (.num 0) } : OperI K O).verify sqrt lu o d k tol fs).2 = .ok () := by
  obtain ⟨r, m, h1, h2, _, h4, h5, h6⟩ := (C94_accepted_iff hs lu ht I o d k fs).1 h
  exact (C94_accepted_iff hs lu ht _ o d k fs).2 ⟨r, m, h1, h2, .inr (.inl rfl), h4, h5, h6⟩

/-- C94: `verify()` of an operator with one state does not look at `galerkin()` at all. -/
theorem C94_galerkin_unchecked (sqrt : K → K) (lu : List (List K) → List K → Except Err (List K)) (tol : K)
    (I : OperI K O) (o : O) (h1 : I.stateDim o = some 1) (g : O → Nat → List (List K) → Option (List (List K)) →
      Except Err O) (d : OpDraw K) (k : Nat) (fs : FS K) :
    ({ I with galerkin := g } : OperI K O).verify sqrt lu o d k tol fs = I.verify sqrt lu o d k tol fs := by
  have hd : ∀ r m, I.dims o = .ok (r, m) → r = 1 := fun r m h => by
    have h3 := ((dims_iff I o r m).1 h).1
    rw [h1] at h3
    have h4 : (1 : Int) = (r : Int) := Option.some.inj h3
    omega
  have hm : ({ I with galerkin := g } : OperI K O).verifyMethods sqrt lu o d k tol = I.verifyMethods sqrt lu o d k tol := by
    have e1 : ({ I with galerkin := g } : OperI K O).dims o = I.dims o := rfl
    simp only [OperI.verifyMethods, e1]
    rcases hdim : I.dims o with e | ⟨r, m⟩
    · rfl
    · have := hd r m hdim
      subst this
      rfl
  have hf : ∀ r m, ({ I with galerkin := g } : OperI K O).verifyFile o d r m fs = I.verifyFile o d r m fs := fun _ _ => rfl
  simp only [OperI.verify, hm, hf]

/-- C94: if `verify()` accepts an operator when there is no file with the name of the temporary file, then it raises
FileExistsError when there is one, and deletes it. -/
theorem C94_builtin_deletes_file (solve : List (List K) → Mat K → Except Err (Mat K)) (sqrt : K → K)
    (lu : List (List K) → List K → Except Err (List K)) (tol : K) (o : Op K) (d : OpDraw K) (k : Nat) (fs : FS K)
    (h : ((opI solve).verify sqrt lu o d k tol (fs.remove opTempFile)).2 = .ok ()) (hfs : (fs opTempFile).isSome) :
    ((opI solve).verify sqrt lu o d k tol fs).2 = .error .fileExists ∧
      ((opI solve).verify sqrt lu o d k tol fs).1 opTempFile = none := by
  rcases hm : (opI solve).verifyMethods sqrt lu o d k tol with e | ⟨r, m⟩
  · simp only [OperI.verify, hm] at h
    cases h
  · refine C94_existing_file_deleted sqrt lu tol (opI solve) o d k fs hm ?_
    simp only [opI, saveFile, hfs, Bool.not_false, Bool.and_self, if_true]

theorem quad_one_quotients (c x h : K) (hh : h ≠ 0) (u : List K) :
    (OpKind.kron .quad).quotients ⟨1, 1, [[c]]⟩ 1 u [x] h = [[c * (2 * x + h)]] := by
  simp [OpKind.quotients, transpose, unitVec, OpKind.dataCol, Kind.ckron, matVec, dot, vadd, vsub, vsmul, ckron2]
  field_simp
  ring

theorem quad_one_jacobian (c x : K) (u : List K) :
    (OpKind.kron .quad).jacobian ⟨1, 1, [[c]]⟩ [x] u = .ok [[2 * (c * x)]] := by
  have hd : Kind.quad.rOfDim 1 = some 1 := by decide
  have hw : Kind.quad.expandWrites 1 [c] = [(0, c)] := by
    have : Kind.quad.indices 1 = [[0, 0]] := by decide
    simp [Kind.expandWrites, this]
  have hp : KronOp.precompute 0 .quad ⟨1, 1, [[c]]⟩ = .ok [[c + c]] := by
    simp [KronOp.precompute, Kind.expand, hd, hw, scatter, Kind.prejacRow, colIdx, Kind.deg, bind, Except.bind, pure,
      Except.pure]
  simp [OpKind.jacobian, KronOp.jacobian, hp, contractLast, Kind.deg, dot]
  ring

/-- C94: correct quadratic operators are refused. For one state variable, any coefficient `c` and a drawn point `x` with
`2 tol |x| < 10⁻¹⁰`, `verify()` does not accept the operator `c q²`. -/
theorem C94_small_state_refused (solve : List (List K) → Mat K → Except Err (Mat K)) {sqrt : K → K}
    (hs : SquareRoot sqrt) (lu : List (List K) → List K → Except Err (List K)) {tol : K} (ht : 0 ≤ tol) (c x : K)
    (hc : c ≠ 0) (hx : 2 * tol * |x| < 1 / 10 ^ 10) (d : OpDraw K) (k n : Nat) (hd : d.Suits k 1 0 n)
    (hp : d.point = [x]) (fs : FS K) :
    ((opI solve).verify sqrt lu ⟨.kron .quad, some ⟨1, 1, [[c]]⟩⟩ d k tol fs).2 ≠ .ok () := by
  intro h
  obtain ⟨r, m, h1, h2, h3, -⟩ := (C94_accepted_iff hs lu ht _ _ d k fs).1 h
  have hF : (OpKind.kron .quad).Fits (⟨1, 1, [[c]]⟩ : Mat K) 1 0 := by
    refine ⟨⟨rfl, ?_⟩, rfl, rfl⟩
    simp
  have hr : r = 1 := by
    have h4 : some (Int.ofNat 1) = some (r : Int) := h1.1
    have h5 : (1 : Int) = (r : Int) := Option.some.inj h4
    omega
  have hm : m = none := by
    have h4 : (none : Option (Option Int)) = _ := h1.2.2.1
    cases m with
    | none => rfl
    | some m => cases h4
  subst hr hm
  obtain ⟨q0, hq0⟩ := length_eq_one_iff.1 hd.first.1
  have hj : ∀ q : K, (opI solve).jacobian ⟨.kron .quad, some ⟨1, 1, [[c]]⟩⟩ [q] none =
      .ok (.arr ⟨1, 1, [[2 * (c * q)]]⟩) := fun q => by
    have h5 := quad_one_jacobian c q []
    simp only [opI, Op.jacobianVal, Option.getD_none, h5]
    rfl
  have hi : d.input none = none := rfl
  rw [OperI.JacobianChecked, hi, hq0, hj q0, hp, hj x] at h3
  rcases h3 with h3 | h3 | ⟨J, J', h3, -, -, h4, -, s, hs1, G, hG, hle⟩
  · cases h3
  · cases h3
  · cases h4
    have hG' := opI_gradientRows solve (.kron .quad) ⟨1, 1, [[c]]⟩ 1 0 hF [x] [] rfl rfl s
    have e1 : (OpKind.kron .quad).ctrl ([] : List K) = none := rfl
    rw [e1, quad_one_quotients c x s (fdSteps_ne_zero hs1)] at hG'
    rw [hG'] at hG
    cases hG
    simp only [energyOf, zipWith_cons_cons, zipWith_nil_right, vsub, map_cons, map_nil, sumSq, sum_cons, sum_nil,
      add_zero] at hle
    have hs2 : 1 / 10 ^ 10 ≤ s := by
      obtain ⟨i, hi, rfl⟩ := mem_map.1 hs1
      have hi := mem_range.1 hi
      exact one_div_le_one_div_of_le (by positivity) (pow_le_pow_right₀ (by norm_num) (by omega))
    have hs0 : 0 < s := lt_of_lt_of_le (by positivity) hs2
    have e2 : c * (2 * x + s) - 2 * (c * x) = c * s := by ring
    have e3 : tol ^ 2 * (2 * (c * x)) ^ 2 = c ^ 2 * (2 * tol * |x|) ^ 2 := by
      rw [mul_pow (2 * tol), sq_abs]
      ring
    rw [e2, e3, mul_pow] at hle
    have h5 : s ^ 2 ≤ (2 * tol * |x|) ^ 2 := le_of_mul_le_mul_left hle (by positivity)
    have h6 : s ≤ 2 * tol * |x| := (sq_le_sq₀ hs0.le (by positivity)).1 h5
    linarith

/-! ### `OpInfOperator.verify()` -/

/-- C94: without entries only the class is checked, and no file is touched. -/
theorem C94_no_entries (sqrt : K → K) (lu : List (List K) → List K → Except Err (List K)) (C : OpInfI K O)
    (I : OperI K O) (o : O) (h : C.hasEntries o = false) (states controls : List (List K)) (d : OpDraw K)
    (k r m : Nat) (fs : FS K) :
    C.verify sqrt lu I o states controls d k r m fs = (fs, C.verifyClass k states controls r m) := by
  unfold OpInfI.verify
  rcases C.verifyClass k states controls r m with e | ⟨⟩ <;> simp [h]

/-- C94: an operator whose class defines `operator_dimension()` as an ordinary method, as `PolynomialOperator` does, is
always refused. -/
theorem C94_not_static_refused (sqrt : K → K) (lu : List (List K) → List K → Except Err (List K)) (C : OpInfI K O)
    (I : OperI K O) (o : O) (h : C.staticDim = false) (states controls : List (List K)) (d : OpDraw K)
    (k r m : Nat) (fs : FS K) :
    C.verify sqrt lu I o states controls d k r m fs = (fs, .error .verification) := by
  have h1 : C.verifyClass k states controls r m = .error .verification := by
    simp only [OpInfI.verifyClass, h]
    rfl
  simp only [OpInfI.verify, h1]

theorem opKind_dim_pos (o : OpKind) (r m : Nat) (hr : 0 < r) (hm : o.hasInputs → 0 < m) : 0 < o.dim r m := by
  cases o with
  | const => exact Nat.one_pos
  | lin => exact hr
  | inp => exact hm rfl
  | stateInp => exact Nat.mul_pos hr (hm rfl)
  | kron k =>
    cases k with
    | quad => exact Nat.div_pos (by nlinarith) (by norm_num)
    | cubic =>
      have h1 : 2 ≤ r * (r + 1) := by nlinarith
      exact Nat.div_pos (by nlinarith) (by norm_num)
    | quartic =>
      have h1 : 2 ≤ r * (r + 1) := by nlinarith
      have h2 : 6 ≤ r * (r + 1) * (r + 2) := by nlinarith
      exact Nat.div_pos (by nlinarith) (by norm_num)

/-- C94: the classes of the package pass the checks of `operator_dimension()` and `datablock()`, for all positive sizes
and drawn states and inputs of these sizes. -/
theorem C94_classes_accepted (o : OpKind) (k r m : Nat) (hk : 0 < k) (hr : 0 < r) (hm : o.hasInputs → 0 < m)
    (states controls : List (List K)) (h1 : states.length = k) (h2 : ∀ q ∈ states, q.length = r)
    (h3 : controls.length = k) (h4 : ∀ u ∈ controls, u.length = m) :
    (opInfI (K := K) o).verifyClass k states controls r m = .ok () := by
  have hl : (o.datablock states controls).length = k := by simp [OpKind.datablock, h1, h3]
  have h0 : 0 < (o.datablock states controls).length := by omega
  have hf : ((o.datablock states controls).getD 0 []).length = o.dim r m := by
    rw [Opinf.getD_eq_getElem _ _ h0]
    simp only [OpKind.datablock, getElem_zipWith]
    rw [dataCol_length, h2 _ (getElem_mem _), h4 _ (getElem_mem _)]
  simp only [OpInfI.verifyClass, exBind_iff, exists_unit_iff, insist_iff]
  refine ⟨rfl, o.dim r m, positiveDim_iff.2 ⟨rfl, opKind_dim_pos o r m hr hm⟩, rfl, _, rfl, ?_⟩
  rw [hf, isMatrix_iff]
  exact ⟨_, rfl, hl⟩

/-- C94: with entries, `verify()` of an operator that can be inferred returns exactly if the checks of its class and
those of every operator, with the tolerance `10⁻⁵`, succeed. -/
theorem C94_entries_iff (sqrt : K → K) (lu : List (List K) → List K → Except Err (List K)) (C : OpInfI K O)
    (I : OperI K O) (o : O) (h : C.hasEntries o = true) (states controls : List (List K)) (d : OpDraw K)
    (k r m : Nat) (fs : FS K) :
    (C.verify sqrt lu I o states controls d k r m fs).2 = .ok () ↔
      C.verifyClass k states controls r m = .ok () ∧ (I.verify sqrt lu o d k (1 / 10 ^ 5) fs).2 = .ok () := by
  unfold OpInfI.verify
  rcases C.verifyClass k states controls r m with e | ⟨⟩ <;> simp [h]

/-- C94: what the checks of a class are. -/
theorem C94_class_iff (C : OpInfI K O) (k : Nat) (states controls : List (List K)) (r m : Nat) :
    C.verifyClass k states controls r m = .ok () ↔ C.staticDim = true ∧ C.staticBlock = true ∧
      ∃ n : Nat, C.dim r m = some (n : Int) ∧ 0 < n ∧ ∃ cols, C.datablock states controls = .ok (.mat n cols) ∧
        cols.length = k := by
  simp only [OpInfI.verifyClass, exBind_iff, exists_unit_iff, insist_iff, positiveDim_iff, isMatrix_iff]
  constructor
  · rintro ⟨h1, n, ⟨h2, h3⟩, h4, D, h5, cols, rfl, h6⟩
    exact ⟨h1, h4, n, h2, h3, cols, h5, h6⟩
  · rintro ⟨h1, h4, n, h2, h3, cols, h5, h6⟩
    exact ⟨h1, n, ⟨h2, h3⟩, h4, _, h5, cols, rfl, h6⟩

end

/-! ### Examples -/

/-- Drawn numbers for one state variable. -/
def oneDraw : OpDraw ℝ := ⟨[[1], [2]], [[], []], [1], [[]], [[]], [[]], [[]], [[3]], [[-1]]⟩

theorem oneDraw_suits : oneDraw.Suits 2 1 0 0 :=
  ⟨by norm_num, rfl, by simp [oneDraw], rfl, by simp [oneDraw], rfl, rfl, by simp [oneDraw], rfl, by simp [oneDraw],
    by simp [oneDraw], by simp [oneDraw], by simp [oneDraw]⟩

theorem sqrt_squareRoot : SquareRoot Real.sqrt := fun x hx => ⟨Real.sqrt_nonneg x, Real.sq_sqrt hx⟩

/-- The quadratic operator `q²` passes with the point `1` … -/
theorem square_accepted (fs : FS ℝ) (hfs : fs opTempFile = none) : (opI fun _ X => .ok X).verify Real.sqrt (fun _ y => .ok y) ⟨.kron .quad, some ⟨1, 1, [[1]]⟩⟩ oneDraw 2
    (1 / 10 ^ 5) fs = (fs, .ok ()) := by
  have hF : (OpKind.kron .quad).Fits (⟨1, 1, [[1]]⟩ : Mat ℝ) 1 0 := ⟨⟨rfl, by simp⟩, rfl, rfl⟩
  refine C94_builtin_accepted _ sqrt_squareRoot _ (by norm_num) (.kron .quad) ⟨1, 1, [[1]]⟩ 1 0 2 Nat.one_pos (fun h => by cases h) hF
    oneDraw oneDraw_suits (fun k _ J hJ => ?_) (by omega) (by omega) (by omega) _ hfs
  have hJ' := quad_one_jacobian (1 : ℝ) 1 []
  have hJ2 : J = [[2 * (1 * 1)]] := Except.ok.inj (hJ.symm.trans hJ')
  subst hJ2
  refine ⟨1 / 10 ^ (9 + 1), mem_map.2 ⟨9, by simp, rfl⟩, ?_⟩
  have hq := quad_one_quotients (1 : ℝ) 1 (1 / 10 ^ (9 + 1)) (by norm_num) (oneDraw.controls.getD 0 [])
  have hp : oneDraw.point = [1] := rfl
  rw [hp, hq]
  norm_num [energyOf, sumSq, vsub]

/-- … and is refused with the point `10⁻⁶`. -/
example : ((opI fun _ X => .ok X).verify Real.sqrt (fun _ y => .ok y) ⟨.kron .quad, some ⟨1, 1, [[1]]⟩⟩
    { oneDraw with point := [1 / 10 ^ 6] } 2 (1 / 10 ^ 5) (fun _ => none)).2 ≠ .ok () := by
  have h := oneDraw_suits
  exact C94_small_state_refused _ sqrt_squareRoot _ (by norm_num) 1 (1 / 10 ^ 6) one_ne_zero
    (by rw [abs_of_pos (by norm_num)]; norm_num) { oneDraw with point := [1 / 10 ^ 6] } 2 0
    { h with point := rfl } rfl _

/-- It still passes if its Jacobian is replaced by zero … -/
example : (({ opI (K := ℝ) fun _ X => .ok X with jacobian := fun _ _ _ => .ok (.num 0) } : OperI ℝ (Op ℝ)).verify Real.sqrt
    (fun _ y => .ok y) ⟨.kron .quad, some ⟨1, 1, [[1]]⟩⟩ oneDraw 2 (1 / 10 ^ 5) (fun _ => none)).2 = .ok () :=
  C94_zero_jacobian_accepted sqrt_squareRoot _ (by norm_num) _ _ _ _ _
    (congrArg Prod.snd (square_accepted (fun _ => none) rfl))

/-- … and deletes a file of the user. -/
example : ((opI fun _ X => .ok X).verify Real.sqrt (fun _ y => .ok y) ⟨.kron .quad, some ⟨1, 1, [[1]]⟩⟩ oneDraw 2
    (1 / 10 ^ 5) (fun _ => some (.node [] []))).1 opTempFile = none :=
  (C94_builtin_deletes_file _ _ _ _ _ _ _ _ (congrArg Prod.snd (square_accepted _ (by simp [FS.remove]))) rfl).2

/-- The class of quadratic operators passes. -/
example : (opInfI (K := ℚ) (.kron .quad)).verifyClass 1 [[1, 2]] [[1]] 2 1 = .ok () :=
  C94_classes_accepted _ 1 2 1 (by norm_num) (by norm_num) (fun h => by cases h) _ _ rfl (by simp) rfl (by simp)

/-- Drawn numbers for two state variables and an input. -/
def twoDraw : OpDraw ℝ :=
  ⟨[[1, 2], [3, 4]], [[1], [2]], [1, 5], [[1], [0]], [[1], [3]], [[2]], [[3]], [[3, 1]], [[-1, 0]]⟩

theorem twoDraw_suits : twoDraw.Suits 2 2 1 1 :=
  ⟨by norm_num, rfl, by simp [twoDraw], rfl, by simp [twoDraw], rfl, rfl, by simp [twoDraw], rfl, by simp [twoDraw],
    by simp [twoDraw], by simp [twoDraw], by simp [twoDraw]⟩

/-- A bilinear operator with two state variables and one input passes. -/
example : (opI fun _ X => .ok X).verify Real.sqrt (fun _ y => .ok y) ⟨.stateInp, some ⟨2, 2, [[1, 2], [3, 4]]⟩⟩ twoDraw 2
    (1 / 10 ^ 5) (fun _ => none) = (fun _ => none, .ok ()) := by
  have hF : OpKind.stateInp.Fits (⟨2, 2, [[1, 2], [3, 4]]⟩ : Mat ℝ) 2 1 := ⟨⟨rfl, by simp⟩, rfl, rfl⟩
  have hG : gram (2 / 2) twoDraw.test twoDraw.trial = eye (2 / 2) := by
    simp [gram, twoDraw, matMul, transpose, vecMat, vsmul, vadd, eye]
  have hG2 : gram (2 / 2) twoDraw.trial twoDraw.trial = eye (2 / 2) := by
    simp [gram, twoDraw, matMul, transpose, vecMat, vsmul, vadd, eye]
  refine C94_builtin_accepted _ sqrt_squareRoot _ (by norm_num) .stateInp ⟨2, 2, [[1, 2], [3, 4]]⟩ 2 1 2 (by norm_num)
    (fun _ => Nat.one_pos) hF twoDraw twoDraw_suits (fun _ h => by cases h) (fun _ => hG2) (fun _ h => absurd hG h)
    (fun _ y hy => ?_) _ rfl
  obtain ⟨a, rfl⟩ := length_eq_one_iff.1 hy
  rw [hG]
  simp [eye, matVec, dot]

end Opinf
