import Verif.Model.VerifyParam
import Verif.Props.VerifyOp
import Verif.Lemmas.Affine
import Verif.Lemmas.Mono

/-!
# C95: `verify()` of parametric operators
-/

namespace Opinf

open List

variable {K P O : Type}

/-- The dimensions are the positive integers `r` and, for an operator with inputs, `m`. -/
def ParamOpI.DimsAre (I : ParamOpI K P O) (a : P) (r : Nat) (m : Option Nat) : Prop :=
  I.stateDim a = some (r : Int) ∧ 0 < r ∧ I.inputDim a = m.map (fun m : Nat => some (m : Int)) ∧ ∀ m' ∈ m, 0 < m'

/-- The parameter `verify()` evaluates at: the given one or the drawn one. -/
def TestedAt (p : Nat) (given : Option (Par K)) (drawn : Nat → List K) (xs : List K) : Prop :=
  xs.length = p ∧ (given = some (.vec xs) ∨ given = none ∧ xs = drawn p)

theorem parDims_iff (I : ParamOpI K P O) (a : P) (r : Nat) (m : Option Nat) :
    I.dims a = .ok (r, m) ↔ I.DimsAre a r m := by
  simp only [ParamOpI.dims, ParamOpI.DimsAre, exBind_iff, positiveDim_iff]
  rcases h : I.inputDim a with _ | d
  · rcases m with _ | m
    · simp [pure, Except.pure, and_assoc]
    · simp [pure, Except.pure]
  · rcases m with _ | m
    · simp [exBind_iff, pure, Except.pure]
    · simp only [exBind_iff, positiveDim_iff, pure, Except.pure, Except.ok.injEq, Prod.mk.injEq, Option.some.injEq,
        Option.map_some, Option.mem_def, forall_eq']
      constructor
      · rintro ⟨r', ⟨h1, h2⟩, m', ⟨h3, h4⟩, h5, h6⟩
        subst h5 h6
        exact ⟨h1, h2, h3, h4⟩
      · rintro ⟨h1, h2, h3, h4⟩
        exact ⟨r, ⟨h1, h2⟩, m, ⟨h3, h4⟩, rfl, rfl⟩

theorem hasParamShape_iff (p : Option Nat) (mu : Par K) :
    hasParamShape p mu = true ↔ ∃ xs, mu = .vec xs ∧ p = some xs.length := by
  cases p with
  | none => simp [hasParamShape]
  | some p => cases mu with
    | scalar x => simp [hasParamShape, Par.shape]
    | vec xs =>
      simp only [hasParamShape, Par.shape, beq_iff_eq, Par.vec.injEq, Option.some.injEq]
      exact ⟨fun h => ⟨xs, rfl, h.symm⟩, fun ⟨_, h1, h2⟩ => by subst h1; exact h2.symm⟩

theorem prepare_iff (I : ParamOpI K P O) (a : P) (given : Option (Par K)) (drawn : Nat → List K) (single : K)
    (m : Option Nat) (mu : Par K) : I.prepare a given drawn single = .ok (m, mu) ↔ I.classOK a = true ∧
      (∃ r, I.DimsAre a r m) ∧ ∃ p xs, I.paramDim a = some p ∧ TestedAt p given drawn xs ∧ mu = .vec xs := by
  simp only [ParamOpI.prepare, exBind_iff, exists_unit_iff, insist_iff]
  refine and_congr_right fun _ => ?_
  constructor
  · rintro ⟨⟨r, m'⟩, h1, h2⟩
    split at h2
    · rename_i hs
      cases h2
      refine ⟨⟨r, (parDims_iff I a r m').1 h1⟩, ?_⟩
      obtain ⟨xs, hx, hp⟩ := (hasParamShape_iff _ _).1 hs
      refine ⟨xs.length, xs, hp, ⟨rfl, ?_⟩, hx⟩
      cases given with
      | some g => exact .inl (congrArg some hx)
      | none =>
        rw [hp] at hx
        exact .inr ⟨rfl, (Par.vec.inj hx).symm⟩
    · cases h2
  · rintro ⟨⟨r, h1⟩, p, xs, hp, ⟨hl, hg⟩, rfl⟩
    have ht : testParam (I.paramDim a) given drawn single = .vec xs := by
      rcases hg with rfl | ⟨rfl, rfl⟩
      · rfl
      · simp only [testParam, hp]
    refine ⟨(r, m), (parDims_iff I a r m).2 h1, ?_⟩
    rw [ht, if_pos ((hasParamShape_iff _ _).2 ⟨xs, rfl, hp.trans (congrArg some hl.symm)⟩)]
    rfl

/-- C95: `verify()` of a parametric operator returns exactly if the dimensions are valid, the test parameter has the
shape `(parameter_dimension,)`, and `evaluate()` returns there a nonparametric operator of the class announced, with the
same state and input dimensions. -/
theorem C95_accepted_iff (I : ParamOpI K P O) (a : P) (given : Option (Par K)) (drawn : Nat → List K) (single : K) :
    (I.verify a given drawn single).2 = .ok () ↔ I.classOK a = true ∧ ∃ r m p xs op, I.DimsAre a r m ∧
      I.paramDim a = some p ∧ TestedAt p given drawn xs ∧ (I.evaluate a (.vec xs)).2 = .ok op ∧
      I.instanceOf a op = true ∧ I.nonparametric op = true ∧ I.outState op = I.stateDim (I.evaluate a (.vec xs)).1 ∧
      I.outInput op = m.map fun m : Nat => some (m : Int) := by
  constructor
  · intro h
    unfold ParamOpI.verify at h
    rcases hp : I.prepare a given drawn single with e | ⟨m, mu⟩
    · rw [hp] at h
      cases h
    · rw [hp] at h
      obtain ⟨h1, ⟨r, h2⟩, p, xs, h3, h4, rfl⟩ := (prepare_iff I a given drawn single m mu).1 hp
      rcases he : (I.evaluate a (.vec xs)).2 with e | op
      · simp only [he] at h
        cases h
      · simp only [he, ParamOpI.verifyOut, exBind_iff, exists_unit_iff, insist_iff, beq_iff_eq] at h
        exact ⟨h1, r, m, p, xs, op, h2, h3, h4, he, h.1, h.2.1, h.2.2.1, h.2.2.2⟩
  · rintro ⟨h1, r, m, p, xs, op, h2, h3, h4, he, h5, h6, h7, h8⟩
    have hp := (prepare_iff I a given drawn single m (.vec xs)).2 ⟨h1, ⟨r, h2⟩, p, xs, h3, h4, rfl⟩
    simp only [ParamOpI.verify, hp, he, ParamOpI.verifyOut, exBind_iff, exists_unit_iff, insist_iff, beq_iff_eq]
    exact ⟨h5, h6, h7, h8⟩

/-- C95: an operator whose parameter dimension is not known is refused with ValueError, whatever the test parameter. -/
theorem C95_unknown_dimension (I : ParamOpI K P O) (a : P) (hc : I.classOK a = true) {r : Nat} {m : Option Nat}
    (hd : I.DimsAre a r m) (hp : I.paramDim a = none) (given : Option (Par K)) (drawn : Nat → List K) (single : K) :
    I.verify a given drawn single = (a, .error .value) := by
  have h : I.prepare a given drawn single = .error .value := by
    simp only [ParamOpI.prepare, hc, (parDims_iff I a r m).2 hd, hp, hasParamShape]
    rfl
  simp only [ParamOpI.verify, h]

/-- C95: a test parameter that is a number is refused with ValueError, also if the parameter dimension is one. -/
theorem C95_scalar_parameter (I : ParamOpI K P O) (a : P) (hc : I.classOK a = true) {r : Nat} {m : Option Nat}
    (hd : I.DimsAre a r m) (x : K) (drawn : Nat → List K) (single : K) :
    I.verify a (some (.scalar x)) drawn single = (a, .error .value) := by
  have hs : hasParamShape (I.paramDim a) (testParam (I.paramDim a) (some (.scalar x)) drawn single) = false := by
    cases h : I.paramDim a <;> rfl
  have h : I.prepare a (some (.scalar x)) drawn single = .error .value := by
    simp only [ParamOpI.prepare, hc, (parDims_iff I a r m).2 hd, hs]
    rfl
  simp only [ParamOpI.verify, h]

/-- C95: an operator without entries (state dimension `None`) is refused with VerificationError. -/
theorem C95_no_state_dimension (I : ParamOpI K P O) (a : P) (hc : I.classOK a = true) (hd : I.stateDim a = none)
    (given : Option (Par K)) (drawn : Nat → List K) (single : K) :
    I.verify a given drawn single = (a, .error .verification) := by
  have h : I.prepare a given drawn single = .error .verification := by
    simp only [ParamOpI.prepare, hc, ParamOpI.dims, hd]
    rfl
  simp only [ParamOpI.verify, h]

/-! ### The operators of the package -/

theorem opInput_fits {o : OpKind} {E : Mat K} {r m : Nat} (hr : 0 < r) (hF : o.Fits E r m) :
    opInput o (some E) = (if o.hasInputs then some m else none).map (fun m : Nat => some (m : Int)) := by
  have hc := hF.2.2
  cases o with
  | stateInp =>
    have h : E.ncols / E.nrows = m := by rw [hc, hF.2.1]; exact Nat.mul_div_cancel_left m hr
    simp [opInput, OpKind.hasInputs, Op.inputDim]
    exact_mod_cast h
  | inp =>
    have h : E.ncols = m := hc
    simp [opInput, OpKind.hasInputs, Op.inputDim, h]
  | _ => simp [opInput, OpKind.hasInputs]

theorem fits_dims {o : OpKind} {E : Mat K} {r m : Nat} (hr : 0 < r) (hm : o.hasInputs → 0 < m) (I : ParamOpI K P O) (a : P)
    (hF : o.Fits E r m) (h1 : I.stateDim a = (some E.nrows).map Int.ofNat) (h2 : I.inputDim a = opInput o (some E)) :
    I.DimsAre a r (if o.hasInputs then some m else none) := by
  refine ⟨by rw [h1, hF.2.1]; rfl, hr, h2.trans (opInput_fits hr hF), fun m' h => ?_⟩
  split at h
  · rename_i hi
    cases h
    exact hm hi
  · cases h

/-- C95: an affine operator of the package whose arrays fit the dimensions and whose parameter dimension is known passes
`verify()` and is not changed, at every test parameter at which the coefficient functions return coefficients. -/
theorem C95_affine_accepted [Field K] (a : Affine K) (A : Mat K) (As : List (Mat K)) (r m p : Nat) (hr : 0 < r)
    (hm : a.kind.hasInputs → 0 < m) (he : a.entries = some (A :: As)) (hF : ∀ B ∈ A :: As, a.kind.Fits B r m)
    (hp : a.p = some p) (given : Option (Par K)) (drawn : Nat → List K) (single : K) (xs th : List K)
    (ht : TestedAt p given drawn xs) (hth : a.thetas (.vec xs) = .ok th) (hne : th ≠ []) :
    (affineParI (K := K)).verify a given drawn single = (a, .ok ()) := by
  have hA := hF A mem_cons_self
  have hd : (affineParI (K := K)).DimsAre a r (if a.kind.hasInputs then some m else none) :=
    fits_dims hr hm _ _ hA (by simp [affineParI, POp.stateDim, POp.first, he]) (by simp [affineParI, POp.first, he])
  have hW := (weightedSum_spec th (A :: As) hF hne (by simp)).1
  have hev : a.evaluate (.vec xs) = (a, .ok ⟨a.kind, some (weightedSum th (A :: As))⟩) := by
    have hl : a.learnDim (.vec xs) = a := by simp [Affine.learnDim, hp]
    have hdim : ¬ some (Par.vec xs).dim ≠ a.p := by simp [Par.dim, hp, ht.1]
    unfold Affine.evaluate
    rw [he]
    simp only [hl, if_neg hdim, hth, setEntries_fits a.kind _ r m hr hW]
  refine Prod.ext ?_ ?_
  · have hpr := (prepare_iff affineParI a given drawn single _ (.vec xs)).2 ⟨rfl, ⟨r, hd⟩, p, xs, hp, ht, rfl⟩
    simp only [ParamOpI.verify, hpr]
    exact congrArg Prod.fst hev
  · refine (C95_accepted_iff _ a given drawn single).2 ⟨rfl, r, _, p, xs, _, hd, hp, ht, congrArg Prod.snd hev,
      beq_self_eq_true _, rfl, ?_, opInput_fits hr hW⟩
    have h1 : ((affineParI (K := K)).evaluate a (.vec xs)).1 = a := congrArg Prod.fst hev
    rw [h1, hd.1]
    simp [affineParI, Op.stateDim, hW.2.1]

/-- C95: an affine operator made from coefficient functions does not know its parameter dimension, and is refused with
ValueError whatever the test parameter, although `evaluate()` succeeds there; once it has been evaluated, it passes. -/
theorem C95_fresh_affine_refused [Field K] (a : Affine K) (A : Mat K) (As : List (Mat K)) (r m : Nat) (hr : 0 < r)
    (hm : a.kind.hasInputs → 0 < m) (he : a.entries = some (A :: As)) (hF : ∀ B ∈ A :: As, a.kind.Fits B r m)
    (hp : a.p = none) (drawn : Nat → List K) (single : K) (xs th : List K)
    (hth : a.thetas (.vec xs) = .ok th) (hne : th ≠ []) :
    (∀ given, (affineParI (K := K)).verify a given drawn single = (a, .error .value)) ∧
    ∃ op, (a.evaluate (.vec xs)).2 = .ok op ∧
      ((affineParI (K := K)).verify (a.evaluate (.vec xs)).1 (some (.vec xs)) drawn single).2 = .ok () := by
  have hA := hF A mem_cons_self
  have hd : (affineParI (K := K)).DimsAre a r (if a.kind.hasInputs then some m else none) :=
    fits_dims hr hm _ _ hA (by simp [affineParI, POp.stateDim, POp.first, he]) (by simp [affineParI, POp.first, he])
  have hW := (weightedSum_spec th (A :: As) hF hne (by simp)).1
  have hev : a.evaluate (.vec xs) =
      ({ a with p := some xs.length }, .ok ⟨a.kind, some (weightedSum th (A :: As))⟩) := by
    have hl : a.learnDim (.vec xs) = { a with p := some xs.length } := by simp [Affine.learnDim, hp, Par.dim]
    have hth' : ({ a with p := some xs.length } : Affine K).thetas (.vec xs) = .ok th := hth
    unfold Affine.evaluate
    rw [he]
    simp only [hl, Par.dim, ne_eq, not_true_eq_false, if_false, hth', setEntries_fits a.kind _ r m hr hW]
    rw [he]
  refine ⟨fun given => C95_unknown_dimension _ a rfl hd hp given drawn single, _, congrArg Prod.snd hev, ?_⟩
  rw [hev]
  exact congrArg Prod.snd (C95_affine_accepted { a with p := some xs.length } A As r m xs.length hr hm he hF rfl
    (some (.vec xs)) drawn single xs th ⟨rfl, .inl rfl⟩ hth hne)

/-- C95: an interpolatory operator of the package whose arrays fit the dimensions passes `verify()` at every test
parameter at which the interpolator returns an array of the same shape. -/
theorem C95_interp_accepted [Field K] (lib : ItpLib K) (t : Interp K) (A E : Mat K) (As : List (Mat K)) (r m p : Nat)
    (hr : 0 < r) (hm : t.kind.hasInputs → 0 < m) (he : t.entries = some (A :: As)) (hF : t.kind.Fits A r m)
    (hp : t.p = some p) (c : ItpClass) (Q : PArr K) (Bs : List (Mat K)) (hi : t.itp = some (c, Q, Bs))
    (given : Option (Par K)) (drawn : Nat → List K) (single : K) (xs : List K) (ht : TestedAt p given drawn xs)
    (hE : lib.eval c Q Bs (t.unwrap (.vec xs)) = .ok E) (hEF : t.kind.Fits E r m) :
    (interpParI lib).verify t given drawn single = (t, .ok ()) := by
  have hd : (interpParI lib).DimsAre t r (if t.kind.hasInputs then some m else none) :=
    fits_dims hr hm _ _ hF (by simp [interpParI, POp.stateDim, POp.first, he]) (by simp [interpParI, POp.first, he])
  have hev : t.evaluate lib (.vec xs) = .ok ⟨t.kind, some E⟩ := by
    have hdim : ¬ (Par.vec xs).dim ≠ p := by simp [Par.dim, ht.1]
    simp only [Interp.evaluate, he, hp, if_neg hdim, hi, hE, setEntries_fits t.kind _ r m hr hEF]
  refine Prod.ext ?_ ?_
  · have hpr := (prepare_iff (interpParI lib) t given drawn single _ (.vec xs)).2 ⟨rfl, ⟨r, hd⟩, p, xs, hp, ht, rfl⟩
    simp only [ParamOpI.verify, hpr]
    rfl
  · refine (C95_accepted_iff _ t given drawn single).2 ⟨rfl, r, _, p, xs, _, hd, hp, ht, hev,
      beq_self_eq_true _, rfl, ?_, opInput_fits hr hEF⟩
    have h1 : ((interpParI lib).evaluate t (.vec xs)).1 = t := rfl
    rw [h1, hd.1]
    simp [interpParI, Op.stateDim, hEF.2.1]

/-! ### Examples -/

/-- `mu ↦ A0 + mu A1` with a callable coefficient function. -/
def lineOp (p : Option Nat) : Affine ℚ :=
  ⟨.lin, 2, fun mu => .ok (.vec (1 :: mu.toList)), p, some [⟨1, 1, [[2]]⟩, ⟨1, 1, [[3]]⟩]⟩

example : ((affineParI (K := ℚ)).verify (lineOp (some 1)) none (fun p => replicate p 5) 5).2 = .ok () :=
  congrArg Prod.snd (C95_affine_accepted (lineOp (some 1)) ⟨1, 1, [[2]]⟩ [⟨1, 1, [[3]]⟩] 1 0 1 Nat.one_pos
    (fun h => by cases h) rfl (by simp [OpKind.Fits, Mat.WF, lineOp, OpKind.dim]) rfl none _ 5 [5] [1, 5]
    ⟨rfl, .inr ⟨rfl, rfl⟩⟩ rfl (by simp))

example : ((affineParI (K := ℚ)).verify (lineOp none) (some (.vec [5])) (fun p => replicate p 5) 5).2 = .error .value := by
  decide +kernel

example : ((interpParI (K := ℚ) ⟨fun _ _ _ => .ok (), fun _ _ As _ => .ok (As.getD 0 ⟨0, 0, []⟩)⟩).verify
    ⟨.lin, some (.one [0, 1]), some 1, some [⟨1, 1, [[2]]⟩, ⟨1, 1, [[3]]⟩], none,
      some (.cubic, .one [0, 1], [⟨1, 1, [[2]]⟩, ⟨1, 1, [[3]]⟩])⟩ (some (.vec [5])) (fun p => replicate p 5) 5).2 =
    .ok () := by
  decide +kernel

end Opinf
