import Verif.Model.VerifyOp
import Verif.Props.VerifyLift

/-!
# C94: `verify()` of operators

What acceptance means for operators of any class (`C94_accepted_iff`), and what happens to the files.
-/

namespace Opinf

open List

variable {K O : Type}

/-- A sequence of two steps succeeds if both do. -/
theorem exBind_iff {α β : Type} {x : Except Err α} {f : α → Except Err β} {b : β} :
    (x >>= f) = .ok b ↔ ∃ a, x = .ok a ∧ f a = .ok b := by
  cases x with
  | error e => exact ⟨fun h => (by cases h), fun ⟨_, h, _⟩ => by cases h⟩
  | ok a => exact ⟨fun h => ⟨a, rfl, h⟩, fun ⟨_, h, h'⟩ => by cases h; exact h'⟩

/-- A step that returns nothing. -/
theorem exists_unit_iff {p : Unit → Prop} : (∃ a, p a) ↔ p () := ⟨fun ⟨_, h⟩ => h, fun h => ⟨(), h⟩⟩

/-! ### What is checked -/

/-- The dimensions are the positive integers `r` and, for an operator with inputs, `m`. -/
def OperI.DimsAre (I : OperI K O) (o : O) (r : Nat) (m : Option Nat) : Prop :=
  I.stateDim o = some (r : Int) ∧ 0 < r ∧ I.inputDim o = m.map (fun m : Nat => some (m : Int)) ∧ ∀ m' ∈ m, 0 < m'

/-- `apply()` returns a state for the first drawn state and as many columns as there are drawn states. -/
def OperI.AppliesTo (I : OperI K O) (o : O) (d : OpDraw K) (k r : Nat) (m : Option Nat) : Prop :=
  (∃ y, I.apply o (.vec (d.states.getD 0 [])) ((d.input m).map .vec) = .ok (.vec y) ∧ y.length = r) ∧
  ∃ cols, I.apply o (.mat r d.states) (m.map fun m => .mat m d.controls) = .ok (.mat r cols) ∧ cols.length = k

/-- The sum of the squares of the entries. -/
def energyOf [Semiring K] (A : List (List K)) : K := (A.map sumSq).sum

/-- `jacobian()` is not implemented, or returns the number zero, or returns an array of the right shape that agrees with
difference quotients at the drawn point, for one of the steps and relatively up to `tol`. -/
def OperI.JacobianChecked [Field K] [LinearOrder K] (I : OperI K O) (o : O) (d : OpDraw K) (r : Nat) (m : Option Nat)
    (tol : K) : Prop :=
  I.jacobian o (d.states.getD 0 []) (d.input m) = .error .notImplemented ∨
  I.jacobian o (d.states.getD 0 []) (d.input m) = .ok (.num 0) ∨
  ∃ J J', I.jacobian o (d.states.getD 0 []) (d.input m) = .ok (.arr J) ∧ J.nrows = r ∧ J.ncols = r ∧
    I.jacobian o d.point (d.input m) = .ok (.arr J') ∧
    (∀ h ∈ fdSteps, ∃ G, I.gradientRows o r (d.input m) d.point h = .ok G) ∧
    ∃ h ∈ fdSteps, ∃ G, I.gradientRows o r (d.input m) d.point h = .ok G ∧
      energyOf (zipWith vsub G J'.rows) ≤ tol ^ 2 * energyOf J'.rows

/-- The dimensions an operator derived from this one must have. -/
def OperI.Keeps (I : OperI K O) (out : O) (r : Nat) (m : Option Nat) : Prop :=
  I.stateDim out = some (r : Int) ∧ ∀ m' ∈ m, I.inputDim out = some (some (m' : Int))

/-- `galerkin()` is not implemented or gives operators that agree with the projection of `apply()` at the drawn
states. -/
def OperI.ProjectionChecked [Field K] [LinearOrder K] (lu : List (List K) → List K → Except Err (List K))
    (I : OperI K O) (o : O) (d : OpDraw K) (r n : Nat) (m : Option Nat) : Prop :=
  I.galerkin o n d.trial (some d.test) = .error .notImplemented ∨
  ∃ out out', I.galerkin o n d.trial (some d.test) = .ok out ∧ I.isOperator out = true ∧ I.Keeps out n m ∧
    (∀ q ∈ d.petrov, ∃ y z w, I.applyVec o r (matVec d.trial q) (d.input m) = .ok y ∧
      lu (matMul n (transpose n d.test) d.trial) (matVec (transpose n d.test) y) = .ok z ∧
      I.applyVec out n q (d.input m) = .ok w ∧ Forall₂ NearTo w z) ∧
    I.galerkin o n d.trial none = .ok out' ∧
    ∀ q ∈ d.galerkin, ∃ y w, I.applyVec o r (matVec d.trial q) (d.input m) = .ok y ∧
      I.applyVec out' n q (d.input m) = .ok w ∧ Forall₂ NearTo w (matVec (transpose n d.trial) y)

/-- Another operator is of the same class, has the same dimensions and gives the same results at the given states. -/
def OperI.SameAs [Field K] [LinearOrder K] (I : OperI K O) (o out : O) (r : Nat) (m : Option Nat) (u : Option (List K))
    (qs : List (List K)) : Prop :=
  I.sameClass out o = true ∧ I.Keeps out r m ∧
    ∀ q ∈ qs, ∃ y z, I.applyVec out r q u = .ok y ∧ I.applyVec o r q u = .ok z ∧ Forall₂ NearTo y z

/-- `save()` or `load()` is not implemented, or gives the same operator. -/
def OperI.FileChecked [Field K] [LinearOrder K] (I : OperI K O) (o : O) (d : OpDraw K) (r : Nat) (m : Option Nat)
    (fs : FS K) : Prop :=
  (I.saveLoad o fs).2 = .error .notImplemented ∨
  ∃ out, (I.saveLoad o fs).2 = .ok out ∧ I.SameAs o out r m (d.input m) d.loaded

/-! ### The parts of `verify()` -/

theorem positiveDim_iff {d : Option Int} {n : Nat} : positiveDim d = .ok n ↔ d = some (n : Int) ∧ 0 < n := by
  rcases d with _ | z
  · exact ⟨fun h => (by cases h), fun h => by cases h.1⟩
  · simp only [positiveDim]
    by_cases h : 0 < z
    · simp only [if_pos h, Except.ok.injEq, Option.some.injEq]
      omega
    · simp only [if_neg h, Option.some.injEq]
      exact ⟨fun h => (by cases h), fun ⟨h1, h2⟩ => by omega⟩

theorem dims_iff (I : OperI K O) (o : O) (r : Nat) (m : Option Nat) : I.dims o = .ok (r, m) ↔ I.DimsAre o r m := by
  simp only [OperI.dims, OperI.DimsAre, exBind_iff, positiveDim_iff]
  rcases h : I.inputDim o with _ | d
  · rcases m with _ | m
    · simp [pure, Except.pure, and_assoc]
    · simp [pure, Except.pure]
  · rcases m with _ | m
    · simp [pure, Except.pure, exBind_iff]
    · simp only [exBind_iff, positiveDim_iff, pure, Except.pure, Except.ok.injEq, Prod.mk.injEq, Option.some.injEq,
        Option.map_some, Option.mem_some_iff, forall_eq']
      constructor
      · rintro ⟨a, ⟨h1, h2⟩, b, ⟨h3, h4⟩, rfl, rfl⟩
        exact ⟨h1, h2, h3, h4⟩
      · rintro ⟨h1, h2, h3, h4⟩
        exact ⟨r, ⟨h1, h2⟩, m, ⟨h3, h4⟩, rfl, rfl⟩

theorem isVector_iff {a : Arg K} {r : Nat} : a.isVector r = true ↔ ∃ y, a = .vec y ∧ y.length = r := by
  cases a <;> simp [Arg.isVector]

theorem isMatrix_iff {a : Arg K} {r k : Nat} : a.isMatrix r k = true ↔ ∃ cols, a = .mat r cols ∧ cols.length = k := by
  cases a with
  | mat n cols =>
    simp only [Arg.isMatrix, Bool.and_eq_true, beq_iff_eq, Arg.mat.injEq]
    exact ⟨fun ⟨h1, h2⟩ => ⟨cols, ⟨h1, rfl⟩, h2⟩, fun ⟨c, ⟨h1, h2⟩, h3⟩ => ⟨h1, h2 ▸ h3⟩⟩
  | _ => simp [Arg.isMatrix]

theorem verifyApply_iff (I : OperI K O) (o : O) (d : OpDraw K) (k r : Nat) (m : Option Nat) :
    I.verifyApply o d k r m = .ok () ↔ I.AppliesTo o d k r m := by
  simp only [OperI.verifyApply, OperI.AppliesTo, exBind_iff, exists_unit_iff, insist_iff, isVector_iff, isMatrix_iff]
  constructor
  · rintro ⟨_, h1, ⟨y, rfl, h2⟩, _, h3, cols, rfl, h4⟩
    exact ⟨⟨y, h1, h2⟩, cols, h3, h4⟩
  · rintro ⟨⟨y, h1, h2⟩, cols, h3, h4⟩
    exact ⟨_, h1, ⟨y, rfl, h2⟩, _, h3, cols, rfl, h4⟩

theorem eachState_iff (f : List K → Except Err Unit) (qs : List (List K)) :
    eachState f qs = .ok () ↔ ∀ q ∈ qs, f q = .ok () := by
  induction qs with
  | nil => simp [eachState]
  | cons q qs ih => rw [eachState, exBind_iff, exists_unit_iff, ih, forall_mem_cons]

theorem keepsDims_iff (I : OperI K O) (out : O) (r : Nat) (m : Option Nat) :
    I.keepsDims out r m = true ↔ I.Keeps out r m := by
  rcases m with _ | m <;> simp [OperI.keepsDims, OperI.Keeps]

theorem closeList_iff [Field K] [LinearOrder K] [IsStrictOrderedRing K] {xs ys : List K} :
    closeList xs ys = true ↔ Forall₂ NearTo xs ys := by
  exact allClose_iff (.vec xs) (.vec ys)

theorem verifySame_iff [Field K] [LinearOrder K] [IsStrictOrderedRing K] (I : OperI K O) (o out : O) (r : Nat)
    (m : Option Nat) (u : Option (List K)) (qs : List (List K)) :
    I.verifySame o out r m u qs = .ok () ↔ I.SameAs o out r m u qs := by
  simp only [OperI.verifySame, OperI.SameAs, exBind_iff, exists_unit_iff, insist_iff, keepsDims_iff, eachState_iff,
    OperI.compareApply, exBind_iff, closeList_iff]
  refine and_congr_right fun _ => and_congr_right fun _ => forall₂_congr fun q _ => ?_
  exact ⟨fun ⟨y, h1, z, h2, h3⟩ => ⟨y, z, h1, h2, h3⟩, fun ⟨y, z, h1, h2, h3⟩ => ⟨y, h1, z, h2, h3⟩⟩

theorem verifyGalerkin_iff [Field K] [LinearOrder K] [IsStrictOrderedRing K]
    (lu : List (List K) → List K → Except Err (List K)) (I : OperI K O) (o : O) (d : OpDraw K) (r : Nat)
    (m : Option Nat) : I.verifyGalerkin lu o d r m = .ok () ↔ (2 ≤ r → I.ProjectionChecked lu o d r (r / 2) m) := by
  unfold OperI.verifyGalerkin
  by_cases hr : r ≤ 1
  · simp only [if_pos hr, true_iff]
    omega
  · have hr' : 2 ≤ r := by omega
    rw [if_neg hr]
    simp only [hr', true_imp_iff, OperI.ProjectionChecked]
    rcases hg : I.galerkin o (r / 2) d.trial (some d.test) with e | out
    · cases e <;> simp
    · simp only [reduceCtorEq, false_or, OperI.verifyProjected, exBind_iff, exists_unit_iff, insist_iff, keepsDims_iff,
        eachState_iff, OperI.comparePetrov, OperI.compareGalerkin, exBind_iff, closeList_iff]
      constructor
      · rintro ⟨h1, h2, h3, out', h4, h5⟩
        refine ⟨out, out', rfl, h1, h2, fun q hq => ?_, h4, fun q hq => ?_⟩
        · obtain ⟨y, a1, z, a2, w, a3, a4⟩ := h3 q hq
          exact ⟨y, z, w, a1, a2, a3, a4⟩
        · obtain ⟨y, a1, w, a2, a3⟩ := h5 q hq
          exact ⟨y, w, a1, a2, a3⟩
      · rintro ⟨_, out', h0, h1, h2, h3, h4, h5⟩
        cases h0
        refine ⟨h1, h2, fun q hq => ?_, out', h4, fun q hq => ?_⟩
        · obtain ⟨y, z, w, a1, a2, a3, a4⟩ := h3 q hq
          exact ⟨y, a1, z, a2, w, a3, a4⟩
        · obtain ⟨y, w, a1, a2, a3⟩ := h5 q hq
          exact ⟨y, a1, w, a2, a3⟩

theorem energyOf_nonneg [Field K] [LinearOrder K] [IsStrictOrderedRing K] (A : List (List K)) : 0 ≤ energyOf A := by
  apply List.sum_nonneg
  intro x hx
  obtain ⟨a, _, rfl⟩ := mem_map.1 hx
  exact sumSq_nonneg a

theorem ratio_exceeds_iff [Field K] [LinearOrder K] [IsStrictOrderedRing K] {sqrt : K → K} (hs : SquareRoot sqrt)
    {tol : K} (ht : 0 ≤ tol) (A B : List (List K)) :
    (ratio (matNorm sqrt A) (matNorm sqrt B)).exceeds tol = false ↔ energyOf A ≤ tol ^ 2 * energyOf B := by
  have hn : ∀ A : List (List K), 0 ≤ matNorm sqrt A ∧ matNorm sqrt A ^ 2 = energyOf A := fun A =>
    hs _ (energyOf_nonneg A)
  rw [← (hn A).2, ← (hn B).2, ← mul_pow, sq_le_sq₀ (hn A).1 (mul_nonneg ht (hn B).1), ratio]
  by_cases hB : matNorm sqrt B = 0
  · rw [if_pos hB, hB, mul_zero]
    by_cases hA : matNorm sqrt A = 0
    · rw [if_pos hA, hA]
      simp [Val.exceeds]
    · rw [if_neg hA]
      simp only [Val.exceeds, Bool.true_eq_false, false_iff]
      exact fun h => hA (le_antisymm h (hn A).1)
  · rw [if_neg hB, ← div_le_iff₀ (lt_of_le_of_ne (hn B).1 (Ne.symm hB)), ← not_lt]
    simp [Val.exceeds]

theorem verifyDiffs_iff [Field K] [LinearOrder K] [IsStrictOrderedRing K] {sqrt : K → K} (hs : SquareRoot sqrt)
    {tol : K} (ht : 0 ≤ tol) (I : OperI K O) (o : O) (r : Nat) (u : Option (List K)) (x : List K) :
    I.verifyDiffs sqrt o r u x tol = .ok () ↔ ∃ J, I.jacobian o x u = .ok (.arr J) ∧
      (∀ h ∈ fdSteps, ∃ G, I.gradientRows o r u x h = .ok G) ∧
      ∃ h ∈ fdSteps, ∃ G, I.gradientRows o r u x h = .ok G ∧
        energyOf (zipWith vsub G J.rows) ≤ tol ^ 2 * energyOf J.rows := by
  simp only [OperI.verifyDiffs, exBind_iff]
  constructor
  · rintro ⟨a, h1, h2⟩
    rcases a with c | J
    · cases h2
    simp only [exBind_iff, insist_iff, Bool.not_eq_true', minExceeds] at h2
    obtain ⟨L, h2, h3⟩ := h2
    rw [mapM_ok_forall2] at h2
    refine ⟨J, h1, fun h hh => ?_, ?_⟩
    · obtain ⟨v, _, this⟩ := forall2_right_mem h2.flip hh
      simp only [OperI.fdError, exBind_iff] at this
      obtain ⟨G, hG, _⟩ := this
      exact ⟨G, hG⟩
    · rw [List.all_eq_false] at h3
      obtain ⟨v, hv, h3⟩ := h3
      obtain ⟨h, hh, this⟩ := forall2_right_mem h2 hv
      simp only [OperI.fdError, exBind_iff, pure, Except.pure, Except.ok.injEq] at this
      obtain ⟨G, hG, rfl⟩ := this
      exact ⟨h, hh, G, hG, (ratio_exceeds_iff hs ht _ _).1 (by simpa using h3)⟩
  · rintro ⟨J, h1, h2, h, hh, G, hG, h3⟩
    refine ⟨_, h1, ?_⟩
    simp only [exBind_iff, insist_iff, Bool.not_eq_true', minExceeds]
    have h4 : ∀ h ∈ fdSteps, ∃ v, I.fdError sqrt o r u x J.rows h = .ok v := by
      intro h hh
      obtain ⟨G, hG⟩ := h2 h hh
      exact ⟨_, exBind_iff.2 ⟨G, hG, rfl⟩⟩
    obtain ⟨L, hL⟩ := mapM_exists_ok.2 h4
    refine ⟨L, hL, ?_⟩
    rw [List.all_eq_false]
    rw [mapM_ok_forall2] at hL
    obtain ⟨v, hv, this⟩ := forall2_right_mem hL.flip hh
    simp only [OperI.fdError, exBind_iff, pure, Except.pure, Except.ok.injEq] at this
    obtain ⟨G', hG', e⟩ := this
    rw [hG] at hG'
    cases hG'
    refine ⟨v, hv, ?_⟩
    rw [← e, (ratio_exceeds_iff hs ht _ _).2 h3]
    simp

theorem verifyJacobian_iff [Field K] [LinearOrder K] [IsStrictOrderedRing K] {sqrt : K → K} (hs : SquareRoot sqrt)
    {tol : K} (ht : 0 ≤ tol) (I : OperI K O) (o : O) (d : OpDraw K) (r : Nat) (m : Option Nat) :
    I.verifyJacobian sqrt o d r m tol = .ok () ↔ I.JacobianChecked o d r m tol := by
  unfold OperI.verifyJacobian OperI.JacobianChecked
  rcases h : I.jacobian o (d.states.getD 0 []) (d.input m) with e | (x | J)
  · cases e <;> simp
  · simp [insist_iff]
  · simp only [exBind_iff, exists_unit_iff, insist_iff, Bool.and_eq_true, beq_iff_eq, verifyDiffs_iff hs ht, reduceCtorEq, false_or,
      Except.ok.injEq, JacVal.arr.injEq]
    constructor
    · rintro ⟨⟨h1, h2⟩, J', h3⟩
      exact ⟨J, J', rfl, h1, h2, h3⟩
    · rintro ⟨_, J', rfl, h1, h2, h3⟩
      exact ⟨⟨h1, h2⟩, J', h3⟩

theorem verifyFile_iff [Field K] [LinearOrder K] [IsStrictOrderedRing K] (I : OperI K O) (o : O) (d : OpDraw K)
    (r : Nat) (m : Option Nat) (fs : FS K) :
    (I.verifyFile o d r m fs).2 = .ok () ↔ I.FileChecked o d r m fs := by
  simp only [OperI.verifyFile, OperI.FileChecked]
  rcases h : (I.saveLoad o fs).2 with e | out
  · cases e <;> simp
  · simp only [verifySame_iff, reduceCtorEq, false_or, Except.ok.injEq]
    exact ⟨fun h => ⟨out, rfl, h⟩, fun ⟨_, e, h⟩ => by subst e; exact h⟩

/-! ### Acceptance -/

/-- C94: the finite differences are tried with the steps `10⁻¹, ..., 10⁻¹⁰`. -/
theorem C94_steps [Field K] (h : K) : h ∈ fdSteps ↔ ∃ k : Nat, 1 ≤ k ∧ k ≤ 10 ∧ h = 1 / 10 ^ k := by
  simp only [fdSteps, mem_map, mem_range]
  constructor
  · rintro ⟨i, hi, rfl⟩
    exact ⟨i + 1, by omega, by omega, rfl⟩
  · rintro ⟨k, h1, h2, rfl⟩
    exact ⟨k - 1, by omega, by rw [Nat.sub_add_cancel h1]⟩

/-- C94: `verify()` of an operator of any class returns without an exception exactly if the dimensions are positive
integers, `apply()` keeps the shapes, and `jacobian()`, `galerkin()`, `copy()` and `save()`/`load()` agree with `apply()`
at the drawn states. -/
theorem C94_accepted_iff [Field K] [LinearOrder K] [IsStrictOrderedRing K] {sqrt : K → K} (hs : SquareRoot sqrt)
    (lu : List (List K) → List K → Except Err (List K)) {tol : K} (ht : 0 ≤ tol) (I : OperI K O) (o : O)
    (d : OpDraw K) (k : Nat) (fs : FS K) :
    (I.verify sqrt lu o d k tol fs).2 = .ok () ↔ ∃ r m, I.DimsAre o r m ∧ I.AppliesTo o d k r m ∧
      I.JacobianChecked o d r m tol ∧ (2 ≤ r → I.ProjectionChecked lu o d r (r / 2) m) ∧
      (∃ out, I.copy o = .ok out ∧ I.SameAs o out r m (d.input m) d.copied) ∧ I.FileChecked o d r m fs := by
  have key : ∀ r m, I.verifyMethods sqrt lu o d k tol = .ok (r, m) ↔ I.DimsAre o r m ∧ I.AppliesTo o d k r m ∧
      I.JacobianChecked o d r m tol ∧ (2 ≤ r → I.ProjectionChecked lu o d r (r / 2) m) ∧
      ∃ out, I.copy o = .ok out ∧ I.SameAs o out r m (d.input m) d.copied := by
    intro r m
    unfold OperI.verifyMethods
    rw [exBind_iff]
    constructor
    · rintro ⟨⟨r', m'⟩, h1, h2⟩
      simp only [exBind_iff, exists_unit_iff, pure, Except.pure, Except.ok.injEq, Prod.mk.injEq, verifyApply_iff,
        verifyJacobian_iff hs ht, verifyGalerkin_iff, verifySame_iff] at h2
      obtain ⟨h2, h3, h4, out, h5, h6, rfl, rfl⟩ := h2
      exact ⟨(dims_iff I o _ _).1 h1, h2, h3, h4, out, h5, h6⟩
    · rintro ⟨h1, h2, h3, h4, out, h5, h6⟩
      refine ⟨(r, m), (dims_iff I o r m).2 h1, ?_⟩
      simp only [exBind_iff, exists_unit_iff, pure, Except.pure, verifyApply_iff,
        verifyJacobian_iff hs ht, verifyGalerkin_iff, verifySame_iff]
      exact ⟨h2, h3, h4, out, h5, h6, trivial⟩
  unfold OperI.verify
  rcases h : I.verifyMethods sqrt lu o d k tol with e | ⟨r, m⟩
  · simp only [reduceCtorEq, false_iff]
    rintro ⟨r, m, h1, h2, h3, h4, h5, h6⟩
    rw [(key r m).2 ⟨h1, h2, h3, h4, h5⟩] at h
    cases h
  · simp only [verifyFile_iff]
    constructor
    · intro h6
      obtain ⟨h1, h2, h3, h4, h5⟩ := (key r m).1 h
      exact ⟨r, m, h1, h2, h3, h4, h5, h6⟩
    · rintro ⟨r', m', h1, h2, h3, h4, h5, h6⟩
      rw [(key r' m').2 ⟨h1, h2, h3, h4, h5⟩] at h
      cases h
      exact h6

/-! ### Files -/

/-- `save()` writes no other file. -/
def OperI.SavesThere (I : OperI K O) (o : O) : Prop := ∀ fs path p, p ≠ path → (I.save o fs path).1 p = fs p

/-- C94: whatever the outcome, no file except the temporary one is changed, and the temporary file is not there
afterwards if it was not there before. -/
theorem C94_files [Field K] [LinearOrder K] (sqrt : K → K) (lu : List (List K) → List K → Except Err (List K))
    (tol : K) (I : OperI K O) (o : O) (hI : I.SavesThere o) (d : OpDraw K) (k : Nat) (fs : FS K) :
    (∀ p, p ≠ opTempFile → (I.verify sqrt lu o d k tol fs).1 p = fs p) ∧
    (fs opTempFile = none → (I.verify sqrt lu o d k tol fs).1 = fs) := by
  have h1 : ∀ p, p ≠ opTempFile → (I.verify sqrt lu o d k tol fs).1 p = fs p := by
    intro p hp
    unfold OperI.verify
    rcases I.verifyMethods sqrt lu o d k tol with e | ⟨r, m⟩
    · rfl
    · simp only [OperI.verifyFile, FS.remove, if_neg hp, OperI.saveLoad]
      have := hI fs opTempFile p hp
      rcases h : I.save o fs opTempFile with ⟨fs', e | u⟩
      · rw [h] at this
        exact this
      · rw [h] at this
        exact this
  refine ⟨h1, fun h0 => funext fun p => ?_⟩
  by_cases hp : p = opTempFile
  · subst hp
    unfold OperI.verify
    rcases I.verifyMethods sqrt lu o d k tol with e | ⟨r, m⟩
    · rfl
    · simp only [OperI.verifyFile, FS.remove, if_true, h0]
  · exact h1 p hp

/-- C94, negation: a file that happens to have the name of the temporary file is deleted by the call, although `save()`
refuses to overwrite it and the call ends with FileExistsError. -/
theorem C94_existing_file_deleted [Field K] [LinearOrder K] (sqrt : K → K)
    (lu : List (List K) → List K → Except Err (List K)) (tol : K) (I : OperI K O) (o : O) (d : OpDraw K) (k : Nat)
    (fs : FS K) {r : Nat} {m : Option Nat} (h : I.verifyMethods sqrt lu o d k tol = .ok (r, m))
    (hsave : I.save o fs opTempFile = (fs, .error .fileExists)) :
    (I.verify sqrt lu o d k tol fs).2 = .error .fileExists ∧ (I.verify sqrt lu o d k tol fs).1 opTempFile = none := by
  simp only [OperI.verify, h, OperI.verifyFile, OperI.saveLoad, hsave, FS.remove, if_true, and_self]

end Opinf
