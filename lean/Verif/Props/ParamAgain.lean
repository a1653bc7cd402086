import Verif.Lemmas.ParamHist
import Verif.Props.ParamModel

/-!
# C120: a parametric model can be trained again
-/

namespace Opinf

open List

variable {K S C : Type}

/-- The arguments of a call of `fit`. -/
structure PFitCall (K : Type) where
  params : List (Par K)
  states : List (Arg K)
  lhs : List (Arg K)
  inputs : Option (List (Arg K))

/-- The model after a call of `fit`, and what the call raises. -/
def PModel.callFit [CommRing K] [LinearOrder K] (lib : ItpLib K) (I : SolverI K S) (M : PModel K S)
    (c : PFitCall K) : PModel K S × Except Err Unit :=
  M.fit lib I c.params c.states c.lhs c.inputs

/-- The model after any number of calls of `fit`, of which some may have failed. -/
def PModel.afterFits [CommRing K] [LinearOrder K] (lib : ItpLib K) (I : SolverI K S) (M : PModel K S)
    (cs : List (PFitCall K)) : PModel K S :=
  cs.foldl (fun M c => (M.callFit lib I c).1) M

/-- The parameter values of a call have dimension `d`, unless their shapes differ. -/
def PFitCall.Dim (c : PFitCall K) (d : Nat) : Prop := ∀ mu ∈ c.params, mu.dim = d

/-- Two models with the same operators and dimensions. -/
structure SameOutcome (M N : PModel K S) : Prop where
  operators : M.slots = N.slots
  stateDim : M.r = N.r
  inputDim : M.m = N.m
  paramDim : M.p = N.p
  evaluations : ∀ [Semiring K] (lib : ItpLib K) (mu : Par K), (M.evaluate lib mu).2 = (N.evaluate lib mu).2

theorem ofPars_paramsDim {ps : List (Par K)} {P : PArr K} (h : PArr.ofPars ps = .ok P) :
    ∃ d, paramsDim ps = .ok d := by
  cases ps with
  | nil => cases h
  | cons mu ps =>
    rw [PArr.ofPars] at h
    rw [paramsDim]
    split at h
    · cases h
    · rename_i hn
      exact ⟨_, if_neg hn⟩

theorem dim_paramsDim {c : PFitCall K} {d : Nat} (h : c.Dim d) (hne : c.params ≠ []) (d' : Nat)
    (hd : paramsDim c.params = .ok d') : d' = d := by
  cases hc : c.params with
  | nil => exact absurd hc hne
  | cons mu ps =>
    rw [hc, paramsDim] at hd
    split at hd
    · cases hd
    · rw [← Except.ok.inj hd]
      exact h mu (by rw [hc]; exact mem_cons_self)

theorem PSame.outcome {M N : PModel K S} (h : PSame M N) : SameOutcome M N :=
  ⟨h.slots, h.r, h.m, h.p, fun lib mu => by
    simp only [PModel.evaluate, h.slots]
    generalize evalOps lib mu N.slots = x
    obtain ⟨a, x⟩ := x
    cases x <;> rfl⟩

/-- The general statement behind the theorems. -/
theorem fits_again [CommRing K] [LinearOrder K] (lib : ItpLib K) (I : SolverI K S) (cfg : S → C)
    (hI : I.Memoryless cfg) (g : Option ItpClass → Option ItpClass) (d : Nat) (hd : 1 ≤ d) (M : PModel K S)
    (hint : M.intrusive = false) (hseal : Sealed M.slots) (past : List (PFitCall K)) (c : PFitCall K)
    (hpast : ∀ c ∈ past, ∀ d', paramsDim c.params = .ok d' → d' = d)
    (hc : ∀ d', paramsDim c.params = .ok d' → d' = d)
    (hgf : ∀ c ∈ past, (∀ x y, g x = g y → Fixes g c.params x → Fixes g c.params y) ∧ FixSlots g c.params M.slots)
    (hg : Recognises g d c.params) :
    SameCall PSame ((M.afterFits lib I past).callFit lib I c) (M.callFit lib I c) := by
  have key : ∀ past : List (PFitCall K), ∀ N : PModel K S,
      (∀ c ∈ past, ∀ d', paramsDim c.params = .ok d' → d' = d) →
      (∀ c ∈ past, (∀ x y, g x = g y → Fixes g c.params x → Fixes g c.params y) ∧ FixSlots g c.params M.slots) →
      N.slots.map (PSlot.mould g d) = M.slots.map (PSlot.mould g d) → N.hasInputs = M.hasInputs →
      N.intrusive = M.intrusive → N.solver.map cfg = M.solver.map cfg →
      SameCall PSame ((N.afterFits lib I past).callFit lib I c) (M.callFit lib I c) := by
    intro past
    induction past with
    | nil =>
      intro N _ _ h1 h2 h3 h4
      exact pfit_same lib I cfg hI g d hd h1 h2 (h3.trans hint) hint h4 c.params hc hg c.states c.lhs c.inputs
    | cons b bs ih =>
      intro N hb1 hb2 h1 h2 h3 h4
      obtain ⟨k1, k2, k3, k4⟩ := pfit_kept lib I cfg hI g d hd N b.params (hb1 b mem_cons_self) (hseal.kept h1)
        (hb2 b mem_cons_self).1 ((hb2 b mem_cons_self).2.kept (hb2 b mem_cons_self).1 h1) b.states b.lhs b.inputs
      exact ih (N.callFit lib I b).1 (fun c hc => hb1 c (mem_cons_of_mem _ hc))
        (fun c hc => hb2 c (mem_cons_of_mem _ hc)) (k1.trans h1) (k2.trans h2) (k3.trans h3) (k4.trans h4)
  exact key past M hpast hgf rfl rfl rfl rfl

/-- **C120 (explicit interpolators).** A parametric model forgets earlier calls of `fit`, successful or not, when it
is trained again: the call raises the same error as on the model that has never been trained, or it succeeds and the
operators, dimensions and evaluations are the same. The parameter values of all calls have the same dimension, and
the interpolator class of each operator that is interpolated has been given. -/
theorem C120_explicit_partial [CommRing K] [LinearOrder K] (lib : ItpLib K) (I : SolverI K S) (cfg : S → C)
    (hI : I.Memoryless cfg) (d : Nat) (hd : 1 ≤ d) (M : PModel K S) (hint : M.intrusive = false)
    (hknown : ∀ s ∈ M.slots, s.infer = false → ∀ t, s.op = .itp t → t.itp.isSome = true)
    (hcls : ∀ s ∈ M.slots, s.infer = true → ∀ t, s.op = .itp t → t.cls.isSome = true)
    (past : List (PFitCall K)) (c : PFitCall K) (hpast : ∀ b ∈ past, b.Dim d ∧ b.params ≠ []) (hc : c.Dim d)
    (hne : c.params ≠ []) :
    ((M.afterFits lib I past).callFit lib I c).2 = (M.callFit lib I c).2 ∧
    ((M.callFit lib I c).2 = .ok () →
      SameOutcome ((M.afterFits lib I past).callFit lib I c).1 (M.callFit lib I c).1) := by
  obtain ⟨h1, h2⟩ := fits_again lib I cfg hI id d hd M hint hknown past c
    (fun b hb => dim_paramsDim (hpast b hb).1 (hpast b hb).2) (dim_paramsDim hc hne)
    (fun b _ => ⟨fun x y h hx => by
        have h : x = y := h
        exact h ▸ hx, fun s hs hi t ht P As _ => by
        obtain ⟨k, hk⟩ := Option.isSome_iff_exists.1 (hcls s hs hi t ht)
        rw [hk]
        rfl⟩)
    (fun x y h => .inl h)
  exact ⟨h1, fun h => (h2 () (h1.trans h)).outcome⟩

/-- **C120 (ascending parameters).** The same without conditions on the interpolator classes, if the parameters of
the last call are numbers in ascending order or vectors of length at least two. -/
theorem C120_ascending_partial [CommRing K] [LinearOrder K] (lib : ItpLib K) (I : SolverI K S) (cfg : S → C)
    (hI : I.Memoryless cfg) (d : Nat) (hd : 1 ≤ d) (M : PModel K S) (hint : M.intrusive = false)
    (hknown : ∀ s ∈ M.slots, s.infer = false → ∀ t, s.op = .itp t → t.itp.isSome = true)
    (past : List (PFitCall K)) (c : PFitCall K) (hpast : ∀ b ∈ past, b.Dim d ∧ b.params ≠ []) (hc : c.Dim d)
    (hne : c.params ≠ []) (hasc : d = 1 → (c.params.flatMap Par.toList).Pairwise (· < ·)) :
    ((M.afterFits lib I past).callFit lib I c).2 = (M.callFit lib I c).2 ∧
    ((M.callFit lib I c).2 = .ok () →
      SameOutcome ((M.afterFits lib I past).callFit lib I c).1 (M.callFit lib I c).1) := by
  have hfix : ∀ b ∈ past, ∀ x, Fixes (fun x => some (x.getD (defaultClass d))) b.params x := by
    intro b hb x P As hP
    cases x with
    | some x => rfl
    | none =>
      obtain ⟨d', hd'⟩ := ofPars_paramsDim hP
      obtain rfl := dim_paramsDim (hpast b hb).1 (hpast b hb).2 d' hd'
      rcases ofPars_dim hP hd' with ⟨xs, rfl, rfl⟩ | ⟨rows, rfl, h1⟩
      · rfl
      · simp only [itpData, Option.getD_some, Option.getD_none, defaultClass, if_neg h1]
  obtain ⟨h1, h2⟩ := fits_again lib I cfg hI (fun x => some (x.getD (defaultClass d))) d hd M hint hknown past c
    (fun b hb => dim_paramsDim (hpast b hb).1 (hpast b hb).2) (dim_paramsDim hc hne)
    (fun b hb => ⟨fun x y _ _ => hfix b hb y, fun s _ _ t _ => hfix b hb t.cls⟩)
    (fun x y h => .inr ⟨Option.some.inj h, fun xs hxs => by
      obtain ⟨d', hd'⟩ := ofPars_paramsDim hxs
      obtain rfl := dim_paramsDim hc hne d' hd'
      rcases ofPars_dim hxs hd' with ⟨ys, h, h1⟩ | ⟨rows, h, _⟩
      · have : xs = c.params.flatMap Par.toList := by
          rw [PArr.ofPars.eq_def] at hxs
          split at hxs
          · cases hxs
          · rename_i mu ps he
            split at hxs
            · cases hxs
            · split at hxs
              · exact (PArr.one.inj (Except.ok.inj hxs)).symm
              · split at hxs
                · exact (PArr.one.inj (Except.ok.inj hxs)).symm
                · cases hxs
        rw [this]
        exact hasc h1
      · cases h⟩)
  exact ⟨h1, fun h => (h2 () (h1.trans h)).outcome⟩

/-! ### Where it fails -/

/-- A model of one linear operator to infer that is interpolated with the default interpolator. -/
def agDefault : PModel ℚ (Option (Nat × Nat)) where
  slots := [⟨.itp ⟨.lin, none, none, none, none, none⟩, true⟩]
  hasInputs := false
  r := none
  m := some 0
  intrusive := false
  solver := some none
  p := none
  s := none

def agStates : List (Arg ℚ) := [.mat 2 [[1, 2], [3, 4]], .mat 2 [[5, 7]]]
def agLhs : List (Arg ℚ) := [.mat 2 [[1, 0], [0, 1]], .mat 2 [[2, 2]]]

/-- Training at two parameter values. -/
def agCall (a b : ℚ) : PFitCall ℚ := ⟨[.scalar a, .scalar b], agStates, agLhs, none⟩

/-- **C120 (finding).** With the default interpolator, the parameters may be given in any order the first time only:
the class chosen by the first call is remembered and the values are not sorted again. -/
theorem C120_default_witness :
    PModel.construct [POp.itp ⟨.lin, none, none, none, none, none⟩] (none : Option (Nat × Nat)) = .ok agDefault ∧
    (agDefault.callFit toyLib exSolver (agCall 4 1)).2 = .ok () ∧
    (agDefault.callFit toyLib exSolver (agCall 1 4)).2 = .ok () ∧
    ((agDefault.callFit toyLib exSolver (agCall 1 4)).1.callFit toyLib exSolver (agCall 4 1)).2 = .error .value := by
  refine ⟨rfl, ?_, ?_, ?_⟩ <;> decide +kernel

/-- A known affine operator without a parameter dimension: two equal terms. -/
def agKnown : Affine ℚ :=
  ⟨.lin, 2, fun _ => .ok (.vec [1, 1]), none, some [⟨2, 2, [[1, 0], [0, 1]]⟩, ⟨2, 2, [[0, 1], [1, 0]]⟩]⟩

/-- The model with this operator and a constant operator to infer. -/
def agPinned : PModel ℚ (Option (Nat × Nat)) where
  slots := [⟨.aff agKnown, false⟩, ⟨.np ⟨.const, none⟩, true⟩]
  hasInputs := false
  r := some 2
  m := some 0
  intrusive := false
  solver := some none
  p := none
  s := none

/-- Training at two pairs of parameters. -/
def agPairs : PFitCall ℚ := ⟨[.vec [1, 2], .vec [3, 4]], agStates, agLhs, none⟩

/-- **C120 (finding).** The first call of `fit` fixes the parameter dimension of a known affine operator; a later call
with parameters of another dimension, which succeeds on the model that has never been trained, raises
`DimensionalityError`. -/
theorem C120_dimension_witness :
    PModel.construct [POp.aff agKnown, .np ⟨.const, none⟩] (none : Option (Nat × Nat)) = .ok agPinned ∧
    (agPinned.callFit toyLib exSolver agPairs).2 = .ok () ∧
    (agPinned.callFit toyLib exSolver (agCall 1 4)).2 = .ok () ∧
    ((agPinned.callFit toyLib exSolver (agCall 1 4)).1.callFit toyLib exSolver agPairs).2 =
      .error .dimensionality := by
  refine ⟨rfl, ?_, ?_, ?_⟩ <;> decide +kernel

/-- **C120 (finding).** If the interpolator cannot be constructed, here because of equal parameters, `fit` raises an
error although the operator keeps its new entries: it counts as trained, but cannot be evaluated. -/
theorem C120_failure_witness :
    (agDefault.callFit toyLib exSolver (agCall 1 1)).2 = .error .value ∧
    (agDefault.callFit toyLib exSolver (agCall 1 1)).1.slots.map (fun s => s.op.isCal) = [true] ∧
    ((agDefault.callFit toyLib exSolver (agCall 1 1)).1.rhs toyLib (.scalar 1) [1, 1] none).2 = .error .type := by
  refine ⟨?_, ?_, ?_⟩ <;> decide +kernel

/-! ### The hypotheses are satisfiable -/

/-- The model with the class of the interpolator given. -/
def agExplicit : PModel ℚ (Option (Nat × Nat)) :=
  { agDefault with slots := [⟨.itp ⟨.lin, none, none, none, some (.other 0 true), none⟩, true⟩] }

example : (∀ s ∈ agExplicit.slots, s.infer = true → ∀ t, s.op = .itp t → t.cls.isSome = true) ∧
    (agCall 1 4).Dim 1 ∧ (agCall 4 1).Dim 1 ∧ exSolver.Memoryless (fun _ => ()) ∧
    (agExplicit.callFit toyLib exSolver (agCall 4 1)).2 = .ok () ∧
    ((agExplicit.afterFits toyLib exSolver [agCall 1 4, agCall 2 2]).callFit toyLib exSolver (agCall 4 1)).2 =
      .ok () := by
  refine ⟨?_, ?_, ?_, exSolver_memoryless, ?_, ?_⟩
  · intro s hs _ t ht
    simp only [agExplicit, mem_cons, not_mem_nil, or_false] at hs
    subst hs
    cases ht
    rfl
  · intro mu hmu
    simp only [agCall, mem_cons, not_mem_nil, or_false] at hmu
    rcases hmu with rfl | rfl <;> rfl
  · intro mu hmu
    simp only [agCall, mem_cons, not_mem_nil, or_false] at hmu
    rcases hmu with rfl | rfl <;> rfl
  · decide +kernel
  · decide +kernel

example : (agCall 1 4).Dim 1 ∧ ((agCall 1 4).params.flatMap Par.toList).Pairwise (· < ·) ∧
    ((agDefault.afterFits toyLib exSolver [agCall 4 1, agCall 1 1]).callFit toyLib exSolver (agCall 1 4)).2 =
      .ok () := by
  refine ⟨?_, by decide +kernel, by decide +kernel⟩
  intro mu hmu
  simp only [agCall, mem_cons, not_mem_nil, or_false] at hmu
  rcases hmu with rfl | rfl <;> rfl

end Opinf
