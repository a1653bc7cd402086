import Verif.Props.VerifyOpBuiltin
import Mathlib.Algebra.Order.Ring.Rat

/-!
# C94: the operators of the package pass `verify()`
-/

namespace Opinf

open List

variable {K : Type}

/-- Drawn numbers of the right shapes: at least one state of size `r` with an input of size `m` for each, test states of
size `r` and, for the projections, bases with `n` columns and test states of size `n`. -/
structure OpDraw.Suits (d : OpDraw K) (k r m n : Nat) : Prop where
  pos : 0 < k
  states : d.states.length = k
  statesSize : ∀ q ∈ d.states, q.length = r
  controls : d.controls.length = k
  controlsSize : ∀ u ∈ d.controls, u.length = m
  point : d.point.length = r
  trial : d.trial.length = r
  trialSize : ∀ row ∈ d.trial, row.length = n
  test : d.test.length = r
  petrov : ∀ q ∈ d.petrov, q.length = n
  galerkin : ∀ q ∈ d.galerkin, q.length = n
  copied : ∀ q ∈ d.copied, q.length = r
  loaded : ∀ q ∈ d.loaded, q.length = r

theorem OpDraw.Suits.first {d : OpDraw K} {k r m n : Nat} (h : d.Suits k r m n) :
    (d.states.getD 0 []).length = r ∧ (d.controls.getD 0 []).length = m := by
  have h1 : 0 < d.states.length := by rw [h.states]; exact h.pos
  have h2 : 0 < d.controls.length := by rw [h.controls]; exact h.pos
  rw [Opinf.getD_eq_getElem _ _ h1, Opinf.getD_eq_getElem _ _ h2]
  exact ⟨h.statesSize _ (getElem_mem h1), h.controlsSize _ (getElem_mem h2)⟩

theorem input_ctrl (o : OpKind) (d : OpDraw K) (m : Nat) : d.input (o.ctrl m) = o.ctrl (d.controls.getD 0 []) := by
  cases o <;> rfl

theorem map_ctrl {α β : Type} (o : OpKind) (f : α → β) (a : α) : (o.ctrl a).map f = o.ctrl (f a) := by
  cases o <;> rfl

section

variable [Field K] [LinearOrder K] [IsStrictOrderedRing K] (solve : List (List K) → Mat K → Except Err (Mat K))

theorem nearTo_refl (xs : List K) : Forall₂ NearTo xs xs := by
  refine forall₂_same.2 fun x _ => ?_
  have : 0 ≤ |x| := abs_nonneg x
  simp only [NearTo, sub_self, abs_zero]
  positivity

omit [IsStrictOrderedRing K] in
theorem opI_dims (o : OpKind) (E : Mat K) (r m : Nat) (hr : 0 < r) (hm : o.hasInputs → 0 < m) (hF : o.Fits E r m) :
    (opI solve).DimsAre ⟨o, some E⟩ r (o.ctrl m) := by
  have hc := hF.2.2
  refine ⟨by simp [opI, Op.stateDim, hF.2.1], hr, ?_, ?_⟩
  · cases o with
    | stateInp =>
      have : E.ncols / E.nrows = m := by rw [hc, hF.2.1]; exact Nat.mul_div_cancel_left m hr
      simp [opI, Op.inputDim, OpKind.ctrl, OpKind.hasInputs]
      exact_mod_cast this
    | inp =>
      have : E.ncols = m := hc
      simp [opI, Op.inputDim, OpKind.ctrl, OpKind.hasInputs, this]
    | _ => simp [opI, OpKind.ctrl, OpKind.hasInputs]
  · intro m' h
    unfold OpKind.ctrl at h
    split at h
    · rename_i hi
      cases h
      exact hm hi
    · cases h

omit [IsStrictOrderedRing K] in
theorem opI_keeps (o : OpKind) (E : Mat K) (r m : Nat) (hr : 0 < r) (hF : o.Fits E r m) :
    (opI solve).Keeps ⟨o, some E⟩ r (o.ctrl m) := by
  refine ⟨by simp [opI, Op.stateDim, hF.2.1], fun m' h => ?_⟩
  have hc := hF.2.2
  cases o with
  | stateInp =>
    have : E.ncols / E.nrows = m := by rw [hc, hF.2.1]; exact Nat.mul_div_cancel_left m hr
    cases h
    simp [opI, Op.inputDim, OpKind.hasInputs]
    exact_mod_cast this
  | inp =>
    have : E.ncols = m := hc
    cases h
    simp [opI, Op.inputDim, OpKind.hasInputs, this]
  | _ => cases h

theorem opI_sameAs (o : OpKind) (E : Mat K) (r m : Nat) (hr : 0 < r) (hF : o.Fits E r m) (u : List K)
    (hu : u.length = m) (qs : List (List K)) (hq : ∀ q ∈ qs, q.length = r) :
    (opI solve).SameAs ⟨o, some E⟩ ⟨o, some E⟩ r (o.ctrl m) (o.ctrl u) qs :=
  ⟨by simp [opI], opI_keeps solve o E r m hr hF, fun q h =>
    ⟨_, _, opI_applyVec solve o E r m hF q u (hq q h) hu, opI_applyVec solve o E r m hF q u (hq q h) hu, nearTo_refl _⟩⟩

/-- The finite difference check for a Kronecker operator: for one of the steps the relative error is at most `tol`. -/
def OpKind.Smooth (o : OpKind) (E : Mat K) (r : Nat) (x u : List K) (tol : K) : Prop :=
  ∀ J, o.jacobian E x u = .ok J → ∃ h ∈ fdSteps,
    energyOf (zipWith vsub (o.quotients E r u x h) J) ≤ tol ^ 2 * energyOf J

theorem fdSteps_ne_zero {h : K} (hh : h ∈ fdSteps) : h ≠ 0 := by
  obtain ⟨i, _, rfl⟩ := mem_map.1 hh
  positivity

theorem opI_jacobianChecked (o : OpKind) (E : Mat K) (r m n k : Nat) (hr : 0 < r) (hF : o.Fits E r m) (d : OpDraw K)
    (hd : d.Suits k r m n) (tol : K)
    (hfd : ∀ k, o = .kron k → o.Smooth E r d.point (d.controls.getD 0 []) tol) :
    (opI solve).JacobianChecked ⟨o, some E⟩ d r (o.ctrl m) tol := by
  obtain ⟨h1, h2⟩ := hd.first
  have hsteps : ∀ h ∈ fdSteps, (opI solve).gradientRows ⟨o, some E⟩ r (d.input (o.ctrl m)) d.point h =
      .ok (o.quotients E r (d.controls.getD 0 []) d.point h) := fun h _ => by
    rw [input_ctrl]
    exact opI_gradientRows solve o E r m hF _ _ hd.point h2 h
  -- the check for a class that overrides `jacobian`
  have main : (∀ q : List K, (opI solve).jacobian ⟨o, some E⟩ q (o.ctrl (d.controls.getD 0 [])) =
      (o.jacobian E q (d.controls.getD 0 [])).map fun J => .arr ⟨J.length, (J.getD 0 []).length, J⟩) →
      (∀ J, o.jacobian E d.point (d.controls.getD 0 []) = .ok J → ∃ h ∈ fdSteps,
        energyOf (zipWith vsub (o.quotients E r (d.controls.getD 0 []) d.point h) J) ≤ tol ^ 2 * energyOf J) →
      (opI solve).JacobianChecked ⟨o, some E⟩ d r (o.ctrl m) tol := by
    intro hj hs
    obtain ⟨J, hJ, hJl, hJr, _⟩ := C04_jacobian_is_derivative o E r m hr hF _ _ _ h1 h2 h1
    obtain ⟨J', hJ', _⟩ := C04_jacobian_is_derivative o E r m hr hF _ _ _ hd.point h2 hd.point
    obtain ⟨h, hh, hle⟩ := hs J' hJ'
    refine .inr (.inr ⟨⟨J.length, (J.getD 0 []).length, J⟩, ⟨J'.length, (J'.getD 0 []).length, J'⟩, ?_, hJl, ?_, ?_, fun h hh => ⟨_, hsteps h hh⟩, h, hh, _, hsteps h hh, hle⟩)
    · rw [input_ctrl, hj, hJ]
      rfl
    · have hp : 0 < J.length := by omega
      rw [Opinf.getD_eq_getElem _ _ hp]
      exact hJr _ (getElem_mem hp)
    · rw [input_ctrl, hj, hJ']
      rfl
  have exact' : (∀ k, o ≠ .kron k) → ∀ J, o.jacobian E d.point (d.controls.getD 0 []) = .ok J → ∃ h ∈ fdSteps,
      energyOf (zipWith vsub (o.quotients E r (d.controls.getD 0 []) d.point h) J) ≤ tol ^ 2 * energyOf J := by
    intro ho J hJ
    obtain ⟨J', hJ', hJl, hJr, hq⟩ := quotients_affine o ho E r m hr hF _ _ hd.point h2
    rw [hJ] at hJ'
    cases hJ'
    have hmem : (1 / 10 ^ (0 + 1) : K) ∈ fdSteps := mem_map.2 ⟨0, by simp, rfl⟩
    refine ⟨_, hmem, ?_⟩
    rw [hq _ (fdSteps_ne_zero hmem), ← tabulate_getD hJl hJr, vsub_tabulate, energyOf_tabulate]
    have hz : ((range r).map fun j => ((range r).map fun i =>
        ((J.getD j []).getD i 0 - (J.getD j []).getD i 0) ^ 2).sum).sum = 0 := by simp
    rw [hz]
    exact mul_nonneg (sq_nonneg _) (energyOf_nonneg _)
  cases o with
  | const => exact .inr (.inl rfl)
  | inp => exact .inr (.inl rfl)
  | lin => exact main (fun _ => rfl) (exact' fun _ h => by cases h)
  | stateInp => exact main (fun _ => rfl) (exact' fun _ h => by cases h)
  | kron k => exact main (fun _ => rfl) (hfd k rfl)

/-- The solver of the check (`scipy.linalg.lu_factor` and `lu_solve`) recovers every solution. -/
def Recovers (lu : List (List K) → List K → Except Err (List K)) (G : List (List K)) (n : Nat) : Prop :=
  ∀ y : List K, y.length = n → lu G (matVec G y) = .ok y

theorem opI_projectionChecked (lu : List (List K) → List K → Except Err (List K)) (o : OpKind) (E : Mat K)
    (r m k : Nat) (hr : 2 ≤ r) (hF : o.Fits E r m) (d : OpDraw K) (hd : d.Suits k r m (r / 2))
    (hV : gram (r / 2) d.trial d.trial = eye (r / 2))
    (hsolve : gram (r / 2) d.test d.trial ≠ eye (r / 2) → SolvesExactly solve (gram (r / 2) d.test d.trial) (r / 2))
    (hlu : Recovers lu (gram (r / 2) d.test d.trial) (r / 2)) :
    (opI solve).ProjectionChecked lu ⟨o, some E⟩ d r (r / 2) (o.ctrl m) := by
  obtain ⟨-, h2⟩ := hd.first
  have hn : 0 < r / 2 := by omega
  obtain ⟨F, hg, hFF, hFa⟩ := C06_galerkin_commutes solve o E r m (r / 2) (by omega) hn hF d.trial d.test hd.trial
    hd.trialSize hd.test hsolve
  obtain ⟨F', hg', hFF', hFa'⟩ := C06_galerkin_commutes solve o E r m (r / 2) (by omega) hn hF d.trial d.trial hd.trial
    hd.trialSize hd.trial (fun h => absurd hV h)
  have hg1 : (opI solve).galerkin ⟨o, some E⟩ (r / 2) d.trial (some d.test) = .ok ⟨o, some F⟩ := by
    simp only [opI, Op.galerkinVal, Option.getD_some, hg]
    rfl
  have hg2 : (opI solve).galerkin ⟨o, some E⟩ (r / 2) d.trial none = .ok ⟨o, some F'⟩ := by
    simp only [opI, Op.galerkinVal, Option.getD_none, hg']
    rfl
  have hVq : ∀ q : List K, (matVec d.trial q).length = r := fun q => by rw [length_matVec, hd.trial]
  have hFl : ∀ (F : Mat K), o.Fits F (r / 2) m → ∀ q : List K,
      (matVec F.rows (o.dataCol q (d.controls.getD 0 []))).length = r / 2 := fun F hF q => by
    rw [length_matVec, hF.1.1, hF.2.1]
  refine .inr ⟨_, _, hg1, rfl, opI_keeps solve o F (r / 2) m hn hFF, fun q hq => ?_, hg2, fun q hq => ?_⟩
  · obtain ⟨y, z, e1, e2, e3, -⟩ := hFa q _ (hd.petrov q hq) h2
    rw [applyV_eq o F (r / 2) m hFF q _ (hd.petrov q hq) h2] at e1
    rw [applyV_eq o E r m hF _ _ (hVq q) h2] at e2
    cases e1
    cases e2
    rw [input_ctrl]
    refine ⟨_, _, _, opI_applyVec solve o E r m hF _ _ (hVq q) h2, ?_,
      opI_applyVec solve o F (r / 2) m hFF q _ (hd.petrov q hq) h2, nearTo_refl _⟩
    rw [← e3]
    exact hlu _ (hFl F hFF q)
  · obtain ⟨y, z, e1, e2, -, e3⟩ := hFa' q _ (hd.galerkin q hq) h2
    rw [applyV_eq o F' (r / 2) m hFF' q _ (hd.galerkin q hq) h2] at e1
    rw [applyV_eq o E r m hF _ _ (hVq q) h2] at e2
    cases e1
    cases e2
    rw [input_ctrl]
    refine ⟨_, _, opI_applyVec solve o E r m hF _ _ (hVq q) h2,
      opI_applyVec solve o F' (r / 2) m hFF' q _ (hd.galerkin q hq) h2, ?_⟩
    rw [← e3 hV]
    exact nearTo_refl _

omit [IsStrictOrderedRing K] in
theorem opI_copy (o : OpKind) (E : Mat K) (r m : Nat) (hr : 0 < r) (hF : o.Fits E r m) :
    (opI solve).copy ⟨o, some E⟩ = .ok ⟨o, some E⟩ := by
  simp only [opI, Op.copy, setEntries_fits o E r m hr hF]
  rfl

omit [IsStrictOrderedRing K] in
theorem opI_saveLoad (o : OpKind) (E : Mat K) (r m : Nat) (hr : 0 < r) (hF : o.Fits E r m) (fs : FS K)
    (hfs : fs opTempFile = none) : ((opI solve).saveLoad ⟨o, some E⟩ fs).2 = .ok ⟨o, some E⟩ := by
  have hs : (opI solve).save ⟨o, some E⟩ fs opTempFile = (fs.write opTempFile (⟨o, some E⟩ : Op K).saveH5, .ok ()) := by
    simp only [opI, saveFile, hfs, Option.isSome_none, Bool.false_and, Bool.false_eq_true, if_false]
  simp only [OperI.saveLoad, hs]
  have hl : (opI solve).load ⟨o, some E⟩ (fs.write opTempFile (⟨o, some E⟩ : Op K).saveH5) opTempFile =
      asLoadError (Op.loadH5 o (⟨o, some E⟩ : Op K).saveH5) := by
    simp only [opI, loadFile, FS.write, if_true]
  have hc : Op.loadH5 o (⟨o, some E⟩ : Op K).saveH5 = .ok ⟨o, some E⟩ :=
    (loadH5_saveH5 ⟨o, some E⟩).trans (opI_copy solve o E r m hr hF)
  rw [hl, hc]
  rfl

/-- C94: every operator of the package whose entries fit the dimensions passes `verify()` and leaves the files as they
were, for all drawn numbers of the right shapes with an orthonormal trial basis, provided that the linear solvers solve
the drawn systems, that no file has the name of the temporary file, and that for a quadratic, cubic or quartic operator
the difference quotients at the drawn point are accurate. -/
theorem C94_builtin_accepted {sqrt : K → K} (hs : SquareRoot sqrt)
    (lu : List (List K) → List K → Except Err (List K)) {tol : K} (ht : 0 ≤ tol) (o : OpKind) (E : Mat K)
    (r m k : Nat) (hr : 0 < r) (hm : o.hasInputs → 0 < m) (hF : o.Fits E r m) (d : OpDraw K)
    (hd : d.Suits k r m (r / 2))
    (hfd : ∀ k, o = .kron k → o.Smooth E r d.point (d.controls.getD 0 []) tol)
    (hV : 2 ≤ r → gram (r / 2) d.trial d.trial = eye (r / 2))
    (hsolve : 2 ≤ r → gram (r / 2) d.test d.trial ≠ eye (r / 2) →
      SolvesExactly solve (gram (r / 2) d.test d.trial) (r / 2))
    (hlu : 2 ≤ r → Recovers lu (gram (r / 2) d.test d.trial) (r / 2))
    (fs : FS K) (hfs : fs opTempFile = none) :
    (opI solve).verify sqrt lu ⟨o, some E⟩ d k tol fs = (fs, .ok ()) := by
  obtain ⟨h1, h2⟩ := hd.first
  have hfile : (opI solve).SavesThere ⟨o, some E⟩ := by
    intro fs path p hp
    simp only [opI, saveFile]
    split
    · rfl
    · simp [FS.write, hp]
  refine Prod.ext ((C94_files sqrt lu tol (opI solve) _ hfile d k fs).2 hfs) ?_
  refine (C94_accepted_iff hs lu ht (opI solve) _ d k fs).2 ⟨r, o.ctrl m, opI_dims solve o E r m hr hm hF, ⟨?_, ?_⟩,
    opI_jacobianChecked solve o E r m (r / 2) k hr hF d hd tol hfd,
    fun h => opI_projectionChecked solve lu o E r m k h hF d hd (hV h) (hsolve h) (hlu h),
    ⟨_, opI_copy solve o E r m hr hF, ?_⟩, .inr ⟨_, opI_saveLoad solve o E r m hr hF fs hfs, ?_⟩⟩
  · refine ⟨matVec E.rows (o.dataCol (d.states.getD 0 []) (d.controls.getD 0 [])), ?_, ?_⟩
    · rw [input_ctrl]
      exact opApply_vec o E r m hF _ _ h1 h2
    · rw [length_matVec, hF.1.1, hF.2.1]
  · refine ⟨zipWith (fun q u => matVec E.rows (o.dataCol q u)) d.states d.controls, ?_, ?_⟩
    · rw [map_ctrl]
      exact opApply_mat o E r m hF _ _ hd.statesSize hd.controlsSize (hd.controls.trans hd.states.symm)
    · rw [length_zipWith, hd.states, hd.controls, min_self]
  · rw [input_ctrl]
    exact opI_sameAs solve o E r m hr hF _ h2 _ hd.copied
  · rw [input_ctrl]
    exact opI_sameAs solve o E r m hr hF _ h2 _ hd.loaded

end

end Opinf
