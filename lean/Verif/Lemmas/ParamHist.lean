import Verif.Lemmas.ParamConstruct
import Verif.Lemmas.ParamFit
import Verif.Lemmas.MonoHist

/-!
# Parametric models: what training leaves unchanged, and what training depends on
-/

namespace Opinf

open List

variable {K S C : Type}

/-- The interpolator class used for `d` parameters unless another one is given. -/
def defaultClass (d : Nat) : ItpClass := if d = 1 then .cubic else .linearND

/-- What is left of an operator to infer when everything learned is taken away; `g` may fill in the default
interpolator class. -/
def POp.mould (g : Option ItpClass → Option ItpClass) : POp K → POp K
  | .np o => .np o.clear
  | .aff a => .aff a.clear
  | .itp t => .itp ⟨t.kind, none, none, none, g t.cls, none⟩

/-- The same for all operators; known ones keep their entries and get the parameter dimension. -/
def PSlot.mould (g : Option ItpClass → Option ItpClass) (d : Nat) (s : PSlot K) : PSlot K :=
  ⟨if s.infer then s.op.mould g else s.op.fill d, s.infer⟩

/-- Cleared operators that differ at most in training parameters and in whether the default interpolator class is
given explicitly. -/
inductive POp.Alike (g : Option ItpClass → Option ItpClass) : POp K → POp K → Prop
  | same (o : POp K) : POp.Alike g o o
  | itp (k : OpKind) (P Q : Option (PArr K)) (p : Option Nat) (c c' : Option ItpClass)
      (h : g c = g c') :
      POp.Alike g (.itp ⟨k, P, p, none, c, none⟩) (.itp ⟨k, Q, p, none, c', none⟩)

/-- The same for slots; known operators are equal. -/
structure Twin (g : Option ItpClass → Option ItpClass) (s t : PSlot K) : Prop where
  infer : s.infer = t.infer
  op : s.op.Alike g t.op
  known : s.infer = false → s.op = t.op

/-- Models that training treats alike. -/
structure PTwin (cfg : S → C) (g : Option ItpClass → Option ItpClass) (M N : PModel K S) : Prop where
  slots : Forall₂ (Twin g) M.slots N.slots
  hasIn : M.hasInputs = N.hasInputs
  r : M.r = N.r
  m : M.m = N.m
  p : M.p = N.p
  intr : M.intrusive = N.intrusive
  solver : M.solver.map cfg = N.solver.map cfg

/-- Two calls with the same outcome, and related states if it is a success. -/
def SameCall {A B α : Type} (R : A → B → Prop) (x : A × Except Err α) (y : B × Except Err α) : Prop :=
  x.2 = y.2 ∧ ∀ a, x.2 = .ok a → R x.1 y.1

/-! ### Moulds -/

theorem prep_twin (g : Option ItpClass → Option ItpClass) (d : Nat) {s t : PSlot K} (h : s.mould g d = t.mould g d) : Twin g (prepSlot d s) (prepSlot d t) := by
  obtain ⟨o, i⟩ := s
  obtain ⟨o', i'⟩ := t
  simp only [PSlot.mould, PSlot.mk.injEq] at h
  obtain ⟨h1, rfl⟩ := h
  cases i with
  | false =>
    simp only [Bool.false_eq_true, if_false] at h1
    have e : prepSlot d ⟨o, false⟩ = prepSlot d ⟨o', false⟩ := by simp [prepSlot, h1]
    exact ⟨rfl, by rw [e]; exact .same _, fun _ => by rw [e]⟩
  | true =>
    simp only [if_true] at h1
    refine ⟨rfl, ?_, fun h => by cases h⟩
    simp only [prepSlot, if_true]
    cases o with
    | np a => cases o' with
      | np b =>
        simp only [POp.mould, POp.np.injEq] at h1
        simp only [POp.clear, POp.fill, h1]
        exact .same _
      | aff b => cases h1
      | itp b => cases h1
    | aff a => cases o' with
      | np b => cases h1
      | aff b =>
        simp only [POp.mould, POp.aff.injEq] at h1
        simp only [POp.clear, POp.fill, h1]
        exact .same _
      | itp b => cases h1
    | itp a => cases o' with
      | np b => cases h1
      | aff b => cases h1
      | itp b =>
        simp only [POp.mould, POp.itp.injEq, Interp.mk.injEq, true_and, and_true, Option.some.injEq] at h1
        obtain ⟨k, hc⟩ := h1
        simp only [POp.clear, POp.fill, Interp.clear, k, Option.isNone_none, if_true]
        exact .itp _ _ _ _ _ _ hc

theorem fill_fill (d : Nat) (o : POp K) : (o.fill d).fill d = o.fill d := by
  cases o with
  | np o => rfl
  | aff a => cases h : a.p <;> simp [POp.fill, h]
  | itp t => cases h : t.p <;> simp [POp.fill, h]

theorem mould_clear (g : Option ItpClass → Option ItpClass) (o : POp K) : o.clear.mould g = o.mould g := by cases o <;> rfl

theorem mould_fill (g : Option ItpClass → Option ItpClass) (d : Nat) (o : POp K) : (o.fill d).mould g = o.mould g := by
  cases o with
  | np o => rfl
  | aff a => cases h : a.p <;> simp [POp.fill, POp.mould, Affine.clear, h]
  | itp t => cases h : t.p <;> simp [POp.fill, POp.mould, h]

theorem slot_mould_fill (g : Option ItpClass → Option ItpClass) (d : Nat) (s : PSlot K) : PSlot.mould g d ⟨s.op.fill d, s.infer⟩ = s.mould g d := by
  simp only [PSlot.mould, fill_fill, mould_fill]

theorem clear_first (o : POp K) : o.clear.first = none := by cases o <;> rfl

theorem mould_first (g : Option ItpClass → Option ItpClass) (o : POp K) : (o.mould g).first = none := by cases o <;> rfl

theorem mould_kind (g : Option ItpClass → Option ItpClass) (o : POp K) : (o.mould g).kind = o.kind := by cases o <;> rfl

theorem clear_paramDim (o : POp K) : o.clear.paramDim = none := by cases o <;> rfl

/-- The operators in the slots after clearing. -/
def clearedOps (slots : List (PSlot K)) : List (POp K) :=
  (slots.map fun s => if s.infer then { s with op := s.op.clear } else s).map PSlot.op

theorem cleared_first (g : Option ItpClass → Option ItpClass) (d : Nat) (s : PSlot K) :
    (if s.infer then ({ s with op := s.op.clear } : PSlot K) else s).op.first = (s.mould g d).op.first ∧
    (if s.infer then ({ s with op := s.op.clear } : PSlot K) else s).op.kind = (s.mould g d).op.kind := by
  obtain ⟨o, i⟩ := s
  cases i <;> simp [PSlot.mould, POp.fill_first, clear_first, mould_first, POp.fill_kind, mould_kind, POp.clear_kind]

theorem cleared_state (g : Option ItpClass → Option ItpClass) (d : Nat) (slots : List (PSlot K)) :
    pStateDimCheck (clearedOps slots) = pStateDimCheck ((slots.map (PSlot.mould g d)).map PSlot.op) := by
  simp only [pStateDimCheck, clearedOps, filterMap_map]
  congr 1
  apply filterMap_congr
  intro s _
  simp only [Function.comp_apply, POp.stateDim, (cleared_first g d s).1]

theorem cleared_input (g : Option ItpClass → Option ItpClass) (d : Nat) (slots : List (PSlot K)) :
    pInputDimCheck (clearedOps slots) = pInputDimCheck ((slots.map (PSlot.mould g d)).map PSlot.op) := by
  have e : (clearedOps slots).filter (fun o => o.kind.hasInputs) =
      ((slots.filter fun s => (s.mould g d).op.kind.hasInputs).map fun s =>
        if s.infer then { s with op := s.op.clear } else s).map PSlot.op := by
    simp only [clearedOps, filter_map]
    congr 2
    apply filter_congr
    intro s _
    simp only [Function.comp_apply, (cleared_first g d s).2]
  have e' : ((slots.map (PSlot.mould g d)).map PSlot.op).filter (fun o => o.kind.hasInputs) =
      ((slots.filter fun s => (s.mould g d).op.kind.hasInputs).map (PSlot.mould g d)).map PSlot.op := by
    simp only [filter_map]
    rfl
  simp only [pInputDimCheck, e, e', isEmpty_map, filterMap_map]
  congr 2
  apply filterMap_congr
  intro s _
  simp only [Function.comp_apply, POp.inputDim, (cleared_first g d s).1, (cleared_first g d s).2]

theorem known_param_iff (g : Option ItpClass → Option ItpClass) (d : Nat) (slots : List (PSlot K)) :
    (∀ o ∈ clearedOps slots, ∀ x, o.paramDim = some x → x = d) ↔
    ∀ s ∈ slots.map (PSlot.mould g d), s.infer = false → ∀ x, s.op.paramDim = some x → x = d := by
  constructor
  · intro h s hs hi x hx
    obtain ⟨t, ht, rfl⟩ := mem_map.1 hs
    have hi' : t.infer = false := hi
    simp only [PSlot.mould, hi', Bool.false_eq_true, if_false] at hx
    have hp := paramDim_isParam hx
    rw [POp.fill_isParam] at hp
    rw [POp.fill_paramDim _ _ hp, Option.some.injEq] at hx
    cases hd : t.op.paramDim with
    | none => rw [hd] at hx; exact hx.symm
    | some y =>
      rw [hd] at hx
      have := h t.op (mem_map.2 ⟨t, mem_map.2 ⟨t, ht, by simp [hi']⟩, rfl⟩) y hd
      rw [← hx]
      exact this
  · intro h o ho x hx
    obtain ⟨s, hs, rfl⟩ := mem_map.1 ho
    obtain ⟨t, ht, rfl⟩ := mem_map.1 hs
    cases hi : t.infer with
    | true => simp [hi, clear_paramDim] at hx
    | false =>
      simp only [hi, Bool.false_eq_true, if_false] at hx
      apply h (t.mould g d) (mem_map.2 ⟨t, ht, rfl⟩) hi
      simp only [PSlot.mould, hi, Bool.false_eq_true, if_false]
      rw [POp.fill_paramDim _ _ (paramDim_isParam hx), hx]
      rfl

/-! ### The first steps of training -/

theorem commonParamDim_closed (ops : List (POp K)) (d : Nat) :
    ((∀ o ∈ ops, ∀ x, o.paramDim = some x → x = d) → commonParamDim ops (some d) = .ok (some d)) ∧
    (¬ (∀ o ∈ ops, ∀ x, o.paramDim = some x → x = d) → commonParamDim ops (some d) = .error .dimensionality) := by
  obtain ⟨h1, h2⟩ := consistentDim_iff (ops.filterMap POp.paramDim)
  constructor
  · intro h
    have hall : ∀ x ∈ ops.filterMap POp.paramDim, x = d := fun x hx => by
      obtain ⟨o, ho, hox⟩ := mem_filterMap.1 hx
      exact h o ho x hox
    simp only [commonParamDim, h1 (agree_of_const hall)]
    cases hl : ops.filterMap POp.paramDim with
    | nil => simp
    | cons x xs => simp [hall x (by rw [hl]; simp)]
  · intro h
    by_cases ha : Agree (ops.filterMap POp.paramDim)
    · simp only [commonParamDim, h1 ha]
      cases hl : ops.filterMap POp.paramDim with
      | nil =>
        exact absurd (fun o ho x hx => absurd (mem_filterMap.2 ⟨o, ho, hx⟩) (by rw [hl]; simp)) h
      | cons x xs =>
        have : x ≠ d := by
          rintro rfl
          apply h
          intro o ho y hy
          exact ha y (mem_filterMap.2 ⟨o, ho, hy⟩) x (by rw [hl]; simp)
        simp [this]
    · simp only [commonParamDim, h2 ha]

theorem fillParamDim_closed (d : Nat) (hd : 1 ≤ d) (slots : List (PSlot K)) :
    fillParamDim d slots = (slots.map fun s => { s with op := s.op.fill d }, .ok ()) := by
  have hok : (fillParamDim d slots).2 = .ok () := by
    induction slots with
    | nil => rfl
    | cons s ss ih =>
      rw [fillParamDim]
      split
      · rename_i hc
        rw [Bool.and_eq_true] at hc
        have hs : ∃ o, s.op.setParamDim d = .ok o := by
          cases hop : s.op with
          | np o => exact ⟨_, rfl⟩
          | aff a =>
            rw [hop] at hc
            have hp : a.p = none := by simpa [POp.paramDim] using hc.2
            exact ⟨_, by simp only [POp.setParamDim, Opinf.setParamDim, hp, Option.isSome_none, Bool.false_eq_true,
              if_false, if_neg (show ¬ d < 1 by omega)]; rfl⟩
          | itp t =>
            rw [hop] at hc
            have hp : t.p = none := by simpa [POp.paramDim] using hc.2
            exact ⟨_, by simp only [POp.setParamDim, Opinf.setParamDim, hp, Option.isSome_none, Bool.false_eq_true,
              if_false, if_neg (show ¬ d < 1 by omega)]; rfl⟩
        obtain ⟨o, ho⟩ := hs
        rw [ho]
        exact ih
      · exact ih
  have := fillParamDim_ok d slots (fillParamDim d slots).1 (Prod.ext rfl hok)
  exact Prod.ext this hok

/-- The beginning of `_process_fit_arguments`: clearing and synchronizing the parameter dimensions. -/
def PModel.prepare (M : PModel K S) (d : Nat) : PModel K S × Except Err Unit :=
  match M.clear with
  | (M, .error e) => (M, .error e)
  | (M, .ok ()) => M.sync (some d)

/-- All known parameter dimensions are `d`. -/
def Fitting (d : Nat) (slots : List (PSlot K)) : Prop :=
  ∀ s ∈ slots, s.infer = false → ∀ x, s.op.paramDim = some x → x = d

theorem prepare_cases (g : Option ItpClass → Option ItpClass) (d : Nat) (hd : 1 ≤ d) (X : PModel K S) (slots : List (PSlot K))
    (hX : X.slots.map (PSlot.mould g d) = slots) :
    (∀ e, pStateDimCheck (slots.map PSlot.op) = .error e → (X.prepare d).2 = .error e) ∧
    (∀ r e, pStateDimCheck (slots.map PSlot.op) = .ok r → pInputDimCheck (slots.map PSlot.op) = .error e →
      (X.prepare d).2 = .error e) ∧
    (∀ r m, pStateDimCheck (slots.map PSlot.op) = .ok r → pInputDimCheck (slots.map PSlot.op) = .ok m →
      (Fitting d slots → X.prepare d =
        ({ X with slots := X.slots.map (prepSlot d), r := r, m := m, p := some d }, .ok ())) ∧
      (¬ Fitting d slots → (X.prepare d).2 = .error .dimensionality)) := by
  subst hX
  have e1 := cleared_state g d X.slots
  have e2 := cleared_input g d X.slots
  have e3 := known_param_iff g d X.slots
  change _ ↔ Fitting d _ at e3
  obtain ⟨c1, c2⟩ := commonParamDim_closed (clearedOps X.slots) d
  rw [e3] at c1 c2
  rw [← e1, ← e2]
  have hmap : (X.slots.map fun s => if s.infer then { s with op := s.op.clear } else s).map
      (fun s => { s with op := s.op.fill d }) = X.slots.map (prepSlot d) := by
    rw [map_map]
    apply map_congr_left
    intro s _
    simp only [Function.comp_apply, prepSlot]
    split <;> rfl
  simp only [PModel.prepare, PModel.clear, PModel.ops]
  change (∀ e, pStateDimCheck (clearedOps X.slots) = _ → _) ∧ _
  unfold clearedOps at c1 c2 ⊢
  refine ⟨?_, ?_, ?_⟩
  · intro e he
    simp only [he]
  · intro r e hr he
    simp only [hr, he]
  · intro r m hr hm
    simp only [hr, hm, PModel.sync, PModel.ops]
    constructor
    · intro hf
      simp only [c1 hf, fillParamDim_closed d hd, hmap]
    · intro hf
      simp only [c2 hf]

theorem prepare_same (cfg : S → C) (g : Option ItpClass → Option ItpClass) (d : Nat) (hd : 1 ≤ d) {M N : PModel K S}
    (hs : M.slots.map (PSlot.mould g d) = N.slots.map (PSlot.mould g d)) (hin : M.hasInputs = N.hasInputs)
    (hint : M.intrusive = N.intrusive) (hsol : M.solver.map cfg = N.solver.map cfg) :
    SameCall (PTwin cfg g) (M.prepare d) (N.prepare d) := by
  obtain ⟨a1, a2, a3⟩ := prepare_cases g d hd M _ hs
  obtain ⟨b1, b2, b3⟩ := prepare_cases g d hd N _ rfl
  have herr : ∀ e, (M.prepare d).2 = .error e → (N.prepare d).2 = .error e →
      SameCall (PTwin cfg g) (M.prepare d) (N.prepare d) := fun e h1 h2 =>
    ⟨h1.trans h2.symm, fun a h => by rw [h1] at h; cases h⟩
  cases hr : pStateDimCheck ((N.slots.map (PSlot.mould g d)).map PSlot.op) with
  | error e => exact herr e (a1 e hr) (b1 e hr)
  | ok r =>
    cases hm : pInputDimCheck ((N.slots.map (PSlot.mould g d)).map PSlot.op) with
    | error e => exact herr e (a2 r e hr hm) (b2 r e hr hm)
    | ok m =>
      obtain ⟨a4, a5⟩ := a3 r m hr hm
      obtain ⟨b4, b5⟩ := b3 r m hr hm
      by_cases hf : Fitting d (N.slots.map (PSlot.mould g d))
      · rw [a4 hf, b4 hf]
        refine ⟨rfl, fun _ _ => ⟨?_, hin, rfl, rfl, rfl, hint, hsol⟩⟩
        simp only
        rw [forall₂_map_left_iff, forall₂_map_right_iff]
        have : Forall₂ (fun s t => PSlot.mould g d s = PSlot.mould g d t) M.slots N.slots := by
          have h := hs
          rw [← forall₂_eq_eq_eq] at h
          rw [forall₂_map_left_iff, forall₂_map_right_iff] at h
          exact h
        exact this.imp fun _ _ h => prep_twin g d h
      · exact herr _ (a5 hf) (b5 hf)

/-! ### The later steps -/

theorem alike_facts {g : Option ItpClass → Option ItpClass} {o o' : POp K} (h : o.Alike g o') :
    o.isCal = o'.isCal ∧ o.first = o'.first ∧ o.kind = o'.kind := by
  cases h with
  | same => exact ⟨rfl, rfl, rfl⟩
  | itp => exact ⟨rfl, rfl, rfl⟩

theorem any_twin {g : Option ItpClass → Option ItpClass} {l l' : List (PSlot K)} (h : Forall₂ (Twin g) l l') (f : POp K → Bool)
    (hf : ∀ o o' : POp K, o.Alike g o' → f o = f o') : (l.map PSlot.op).any f = (l'.map PSlot.op).any f := by
  induction h with
  | nil => rfl
  | cons h _ ih => simp only [map_cons, any_cons, ih, hf _ _ h.op]

theorem setStateDim_same {cfg : S → C} {g : Option ItpClass → Option ItpClass} {M N : PModel K S} (h : PTwin cfg g M N) (r : Nat) :
    SameCall (PTwin cfg g) (M.setStateDim r) (N.setStateDim r) := by
  have e := any_twin h.slots (fun o => o.isCal && o.stateDim != some r) fun o o' ha => by
    simp only [POp.stateDim, (alike_facts ha).1, (alike_facts ha).2.1]
  change M.ops.any _ = N.ops.any _ at e
  by_cases hb : (N.ops.any fun o => o.isCal && o.stateDim != some r) = true
  · rw [PModel.setStateDim, PModel.setStateDim, if_pos hb, if_pos (e.trans hb)]
    exact ⟨rfl, fun a h => by cases h⟩
  · rw [PModel.setStateDim, PModel.setStateDim, if_neg hb, if_neg (fun h => hb (e.symm.trans h))]
    exact ⟨rfl, fun _ _ => ⟨h.slots, h.hasIn, rfl, h.m, h.p, h.intr, h.solver⟩⟩

theorem learnStateDim_same {cfg : S → C} {g : Option ItpClass → Option ItpClass} {M N : PModel K S} (h : PTwin cfg g M N)
    (st : List (Nat × List (List K))) : SameCall (PTwin cfg g) (M.learnStateDim st) (N.learnStateDim st) := by
  simp only [PModel.learnStateDim, h.r]
  cases N.r with
  | some r => exact ⟨rfl, fun _ _ => h⟩
  | none => cases st with
    | nil => exact ⟨rfl, fun a h => by cases h⟩
    | cons Q st => exact setStateDim_same h Q.1

theorem setInputDim_same {cfg : S → C} {g : Option ItpClass → Option ItpClass} {M N : PModel K S} (h : PTwin cfg g M N) (m : Nat) :
    SameCall (PTwin cfg g) (M.setInputDim m) (N.setInputDim m) := by
  have e := any_twin h.slots (fun o => o.kind.hasInputs && o.isCal && o.inputDim != some m) fun o o' ha => by
    simp only [POp.inputDim, (alike_facts ha).1, (alike_facts ha).2.1, (alike_facts ha).2.2]
  change M.ops.any _ = N.ops.any _ at e
  have hi := h.hasIn
  by_cases hc : (!N.hasInputs && m != 0) = true
  · rw [PModel.setInputDim, PModel.setInputDim, if_pos hc, if_pos (by rw [hi]; exact hc)]
    exact ⟨rfl, fun a h => by cases h⟩
  · rw [PModel.setInputDim, PModel.setInputDim, if_neg hc, if_neg (by rw [hi]; exact hc)]
    by_cases hb : (N.ops.any fun o => o.kind.hasInputs && o.isCal && o.inputDim != some m) = true
    · rw [if_pos hb, if_pos (e.trans hb)]
      exact ⟨rfl, fun a h => by cases h⟩
    · rw [if_neg hb, if_neg (fun h => hb (e.symm.trans h))]
      exact ⟨rfl, fun _ _ => ⟨h.slots, hi, h.r, rfl, h.p, h.intr, h.solver⟩⟩

theorem learnInputDim_same {cfg : S → C} {g : Option ItpClass → Option ItpClass} {M N : PModel K S} (h : PTwin cfg g M N)
    (us : List (Nat × List (List K))) : SameCall (PTwin cfg g) (M.learnInputDim us) (N.learnInputDim us) := by
  simp only [PModel.learnInputDim, h.m]
  split
  · cases us with
    | nil => exact ⟨rfl, fun a h => by cases h⟩
    | cons U us => exact setInputDim_same h U.1
  · exact ⟨rfl, fun _ _ => h⟩

theorem processInputs_same {cfg : S → C} {g : Option ItpClass → Option ItpClass} {M N : PModel K S} (h : PTwin cfg g M N) (n : Nat)
    (st : List (Nat × List (List K))) (us : Option (List (Arg K))) :
    SameCall (PTwin cfg g) (M.processInputs n st us) (N.processInputs n st us) := by
  simp only [PModel.processInputs, h.hasIn]
  cases N.hasInputs with
  | false =>
    simp only [Bool.false_eq_true, if_false]
    exact ⟨rfl, fun _ _ => h⟩
  | true =>
    simp only [if_true]
    cases us with
    | none => exact ⟨rfl, fun a h => by cases h⟩
    | some us =>
      simp only
      obtain ⟨h1, h2⟩ := learnInputDim_same h (us.map atleast2d)
      generalize M.learnInputDim (us.map atleast2d) = x at h1 h2 ⊢
      generalize N.learnInputDim (us.map atleast2d) = y at h1 h2 ⊢
      obtain ⟨M1, x⟩ := x
      obtain ⟨N1, y⟩ := y
      simp only at h1 h2
      subst h1
      cases x with
      | error e => exact ⟨rfl, fun a h => by cases h⟩
      | ok u =>
        have ht := h2 () rfl
        simp only [ht.m]
        cases checkInputSets n N1.m st (us.map atleast2d) with
        | error e => exact ⟨rfl, fun a h => by cases h⟩
        | ok u => exact ⟨rfl, fun _ _ => ht⟩

theorem pSubKnown_same [CommRing K] (lib : ItpLib K) {g : Option ItpClass → Option ItpClass} {l l' : List (PSlot K)} (h : Forall₂ (Twin g) l l')
    (data : List (PSet K)) (Z : List (List (List K))) : pSubKnown lib data l Z = pSubKnown lib data l' Z := by
  induction h generalizing Z with
  | nil => rfl
  | @cons s t ss ts hst _ ih =>
    simp only [pSubKnown, hst.infer]
    cases hi : t.infer with
    | true => simp only [if_true]; exact ih Z
    | false =>
      simp only [Bool.false_eq_true, if_false, hst.known (hst.infer.trans hi)]
      cases subKnownAt lib t.op data Z with
      | error e => rfl
      | ok Z' => exact ih Z'

/-- The rest of `_process_fit_arguments`. -/
def PModel.restArgs [CommRing K] (lib : ItpLib K) (M : PModel K S) (ps : List (Par K))
    (states lhs : List (Arg K)) (inputs : Option (List (Arg K))) :
    PModel K S × Except Err (List (PSet K) × List (List (List K))) :=
  match M.learnStateDim (states.map atleast2d) with
  | (M, .error e) => (M, .error e)
  | (M, .ok ()) => match checkSets ps.length M.r (states.map atleast2d) (lhs.map atleast2d) with
    | .error e => (M, .error e)
    | .ok () => match M.processInputs ps.length (states.map atleast2d) inputs with
      | (M, .error e) => (M, .error e)
      | (M, .ok U) =>
        match pSubKnown lib (makeSets ps (states.map atleast2d) U) M.slots
            (lhs.map fun L => (atleast2d L).2) with
        | .error e => (M, .error e)
        | .ok Z => (M, .ok (makeSets ps (states.map atleast2d) U, Z))

theorem process_ok_eq [CommRing K] (lib : ItpLib K) (M : PModel K S) (ps : List (Par K)) (d : Nat)
    (hd : paramsDim ps = .ok d) (states lhs : List (Arg K)) (inputs : Option (List (Arg K))) :
    M.processFitArgs lib ps states lhs inputs =
      match M.prepare d with
      | (M, .error e) => (M, .error e)
      | (M, .ok ()) => M.restArgs lib ps states lhs inputs := by
  simp only [PModel.processFitArgs, PModel.prepare, hd]
  generalize M.clear = x
  obtain ⟨M1, x⟩ := x
  cases x with
  | error e => rfl
  | ok u => rfl

theorem process_error_eq [CommRing K] (lib : ItpLib K) (M : PModel K S) (ps : List (Par K)) (e : Err)
    (hd : paramsDim ps = .error e) (states lhs : List (Arg K)) (inputs : Option (List (Arg K))) :
    M.processFitArgs lib ps states lhs inputs =
      (M.clear.1, match M.clear.2 with | .error e' => .error e' | .ok () => .error e) := by
  simp only [PModel.processFitArgs, hd]
  generalize M.clear = x
  obtain ⟨M1, x⟩ := x
  cases x with
  | error e => rfl
  | ok u => rfl

theorem clear_same (g : Option ItpClass → Option ItpClass) (d : Nat) {M N : PModel K S}
    (hs : M.slots.map (PSlot.mould g d) = N.slots.map (PSlot.mould g d)) : M.clear.2 = N.clear.2 := by
  have e1 := cleared_state g d M.slots
  have e2 := cleared_input g d M.slots
  have e3 := cleared_state g d N.slots
  have e4 := cleared_input g d N.slots
  rw [hs, ← e3] at e1
  rw [hs, ← e4] at e2
  simp only [PModel.clear, PModel.ops]
  unfold clearedOps at e1 e2
  rw [e1, e2]
  generalize pStateDimCheck _ = a
  generalize pInputDimCheck _ = b
  cases a with
  | error e => rfl
  | ok r => cases b <;> rfl

theorem restArgs_same [CommRing K] (lib : ItpLib K) (cfg : S → C) (g : Option ItpClass → Option ItpClass) {M N : PModel K S} (h : PTwin cfg g M N)
    (ps : List (Par K)) (states lhs : List (Arg K)) (inputs : Option (List (Arg K))) :
    SameCall (PTwin cfg g) (M.restArgs lib ps states lhs inputs) (N.restArgs lib ps states lhs inputs) := by
  unfold PModel.restArgs
  obtain ⟨h1, h2⟩ := learnStateDim_same h (states.map atleast2d)
  generalize M.learnStateDim (states.map atleast2d) = x at h1 h2 ⊢
  generalize N.learnStateDim (states.map atleast2d) = y at h1 h2 ⊢
  obtain ⟨M1, x⟩ := x
  obtain ⟨N1, y⟩ := y
  simp only at h1 h2
  subst h1
  cases x with
  | error e => exact ⟨rfl, fun a h => by cases h⟩
  | ok u =>
    have ht := h2 () rfl
    simp only [ht.r]
    cases checkSets ps.length N1.r (states.map atleast2d) (lhs.map atleast2d) with
    | error e => exact ⟨rfl, fun a h => by cases h⟩
    | ok u =>
      simp only
      obtain ⟨g1, g2⟩ := processInputs_same ht ps.length (states.map atleast2d) inputs
      generalize M1.processInputs ps.length (states.map atleast2d) inputs = x at g1 g2 ⊢
      generalize N1.processInputs ps.length (states.map atleast2d) inputs = y at g1 g2 ⊢
      obtain ⟨M2, x⟩ := x
      obtain ⟨N2, y⟩ := y
      simp only at g1 g2
      subst g1
      cases x with
      | error e => exact ⟨rfl, fun a h => by cases h⟩
      | ok U =>
        have ht2 := g2 U rfl
        simp only [pSubKnown_same lib ht2.slots]
        cases pSubKnown lib (makeSets ps (states.map atleast2d) U) N2.slots (lhs.map fun L => (atleast2d L).2) with
        | error e => exact ⟨rfl, fun a h => by cases h⟩
        | ok Z => exact ⟨rfl, fun _ _ => ht2⟩

/-- `_process_fit_arguments` treats such models alike. -/
theorem process_same [CommRing K] (lib : ItpLib K) (cfg : S → C) (g : Option ItpClass → Option ItpClass) (d : Nat) (hd : 1 ≤ d) {M N : PModel K S}
    (hs : M.slots.map (PSlot.mould g d) = N.slots.map (PSlot.mould g d)) (hin : M.hasInputs = N.hasInputs)
    (hint : M.intrusive = N.intrusive) (hsol : M.solver.map cfg = N.solver.map cfg) (ps : List (Par K))
    (hps : ∀ d', paramsDim ps = .ok d' → d' = d) (states lhs : List (Arg K)) (inputs : Option (List (Arg K))) :
    SameCall (PTwin cfg g) (M.processFitArgs lib ps states lhs inputs) (N.processFitArgs lib ps states lhs inputs) := by
  cases hp : paramsDim ps with
  | error e =>
    rw [process_error_eq lib M ps e hp, process_error_eq lib N ps e hp, clear_same g d hs]
    refine ⟨rfl, fun a h => ?_⟩
    cases hc : N.clear.2 <;> simp [hc] at h
  | ok d' =>
    obtain rfl := hps d' hp
    rw [process_ok_eq lib M ps d' hp, process_ok_eq lib N ps d' hp]
    obtain ⟨h1, h2⟩ := prepare_same cfg g d' hd hs hin hint hsol
    generalize M.prepare d' = x at h1 h2 ⊢
    generalize N.prepare d' = y at h1 h2 ⊢
    obtain ⟨M1, x⟩ := x
    obtain ⟨N1, y⟩ := y
    simp only at h1 h2
    subst h1
    cases x with
    | error e => exact ⟨rfl, fun a h => by cases h⟩
    | ok u => exact restArgs_same lib cfg g (h2 () rfl) ps states lhs inputs

/-! ### Training -/

/-- Operators with training parameters `ps` that differ at most in whether the default interpolator class is given
explicitly. -/
inductive POp.Set (g : Option ItpClass → Option ItpClass) (ps : List (Par K)) : POp K → POp K → Prop
  | same (o : POp K) : POp.Set g ps o o
  | itp (k : OpKind) (P : PArr K) (p : Option Nat) (c c' : Option ItpClass) (hP : PArr.ofPars ps = .ok P)
      (h : g c = g c') :
      POp.Set g ps (.itp ⟨k, some P, p, none, c, none⟩) (.itp ⟨k, some P, p, none, c', none⟩)

/-- The same for slots. -/
structure SetSlot (g : Option ItpClass → Option ItpClass) (ps : List (Par K)) (s t : PSlot K) : Prop where
  infer : s.infer = t.infer
  op : s.op.Set g ps t.op
  known : s.infer = false → s.op = t.op

theorem setAllParams_alike {g : Option ItpClass → Option ItpClass} {l l' : List (PSlot K)} (h : Forall₂ (Twin g) l l') (ps : List (Par K)) :
    (setAllParams ps l).2 = (setAllParams ps l').2 ∧ ((setAllParams ps l).2 = .ok () →
      Forall₂ (SetSlot g ps) (setAllParams ps l).1 (setAllParams ps l').1) := by
  induction h with
  | nil => exact ⟨rfl, fun _ => .nil⟩
  | @cons s t ss ts hst _ ih =>
    obtain ⟨o, i⟩ := s
    obtain ⟨o', i'⟩ := t
    obtain ⟨h1, h2, h3⟩ := hst
    simp only at h1 h2 h3
    subst h1
    obtain ⟨ih1, ih2⟩ := ih
    cases h2 with
    | same =>
      cases o with
      | np o =>
        simp only [setAllParams]
        exact ⟨ih1, fun hok => .cons ⟨rfl, .same _, fun _ => rfl⟩ (ih2 hok)⟩
      | aff o =>
        simp only [setAllParams]
        exact ⟨ih1, fun hok => .cons ⟨rfl, .same _, fun _ => rfl⟩ (ih2 hok)⟩
      | itp o =>
        simp only [setAllParams]
        cases o.setParams ps with
        | error e => exact ⟨rfl, fun h => by cases h⟩
        | ok t => exact ⟨ih1, fun hok => .cons ⟨rfl, .same _, fun _ => rfl⟩ (ih2 hok)⟩
    | itp k P Q p c c' hc =>
      simp only [setAllParams, Interp.setParams, Option.isSome_none, Bool.false_eq_true, if_false]
      cases hP : PArr.ofPars ps with
      | error e => exact ⟨rfl, fun h => by cases h⟩
      | ok P' =>
        refine ⟨ih1, fun hok => .cons ⟨rfl, .itp _ _ _ _ _ hP hc, fun hi => ?_⟩ (ih2 hok)⟩
        have := h3 hi
        simp only [POp.itp.injEq, Interp.mk.injEq, true_and, and_true] at this
        simp only [this.2]

theorem set_facts {g : Option ItpClass → Option ItpClass} {ps : List (Par K)} {o o' : POp K} (h : o.Set g ps o') :
    (∀ n r m : Nat, o.dim n r m = o'.dim n r m) := by
  cases h with
  | same => exact fun _ _ _ => rfl
  | itp => exact fun _ _ _ => rfl

theorem set_block [CommSemiring K] {g : Option ItpClass → Option ItpClass} {ps : List (Par K)} {o o' : POp K} (h : o.Set g ps o') (r m : Nat)
    (data : List (PSet K)) : o.block r m data = o'.block r m data := by
  cases h with
  | same => rfl
  | itp => rfl

theorem toInfer_set {g : Option ItpClass → Option ItpClass} {ps : List (Par K)} {l l' : List (PSlot K)} (h : Forall₂ (SetSlot g ps) l l') :
    Forall₂ (fun o o' => POp.Set g ps o o') ((l.filter PSlot.infer).map PSlot.op) ((l'.filter PSlot.infer).map PSlot.op) := by
  induction h with
  | nil => exact .nil
  | @cons s t ss ts hst _ ih =>
    cases hi : t.infer with
    | true =>
      rw [filter_cons_of_pos (hst.infer.trans hi), filter_cons_of_pos hi]
      exact .cons hst.op ih
    | false =>
      rw [filter_cons_of_neg (by rw [hst.infer, hi]; simp), filter_cons_of_neg (by rw [hi]; simp)]
      exact ih

theorem dataMatrix_same [CommSemiring K] {g : Option ItpClass → Option ItpClass} {ps : List (Par K)} {M N : PModel K S}
    (h : Forall₂ (SetSlot g ps) M.slots N.slots) (hr : M.r = N.r) (hm : M.m = N.m) (data : List (PSet K)) :
    M.dataMatrix data = N.dataMatrix data := by
  have h' := toInfer_set h
  have e1 : M.toInfer.mapM (POp.block (N.r.getD 0) (N.m.getD 0) data) =
      N.toInfer.mapM (POp.block (N.r.getD 0) (N.m.getD 0) data) := by
    change Forall₂ _ M.toInfer N.toInfer at h'
    generalize M.toInfer = l at h'
    generalize N.toInfer = l' at h'
    induction h' with
    | nil => rfl
    | cons h _ ih => simp only [mapM_cons, set_block h, ih]
  have e2 : (M.toInfer.map fun o => o.dim data.length (N.r.getD 0) (N.m.getD 0)) =
      N.toInfer.map fun o => o.dim data.length (N.r.getD 0) (N.m.getD 0) := by
    change Forall₂ _ M.toInfer N.toInfer at h'
    generalize M.toInfer = l at h' e1
    generalize N.toInfer = l' at h' e1
    clear e1
    induction h' with
    | nil => rfl
    | cons h _ ih => simp only [map_cons, set_facts h, ih]
  simp only [PModel.dataMatrix, hr, hm, e1, e2]

/-- With the default class, the data of one-dimensional parameters are sorted before interpolating. This makes no
difference if they are in ascending order. -/
def Ascending [LinearOrder K] (ps : List (Par K)) : Prop :=
  ∀ xs, PArr.ofPars ps = .ok (.one xs) → xs.Pairwise (· < ·)

theorem ofPars_dim {ps : List (Par K)} {P : PArr K} (h : PArr.ofPars ps = .ok P) {d : Nat}
    (hd : paramsDim ps = .ok d) : (∃ xs, P = .one xs ∧ d = 1) ∨ (∃ rows, P = .two d rows ∧ d ≠ 1) := by
  cases ps with
  | nil => cases h
  | cons mu rest =>
    simp only [PArr.ofPars] at h
    simp only [paramsDim] at hd
    split at hd
    · cases hd
    · rename_i hsh
      rw [if_neg hsh] at h
      have hd := Except.ok.inj hd
      cases mu with
      | scalar x => exact Or.inl ⟨_, (Except.ok.inj h).symm, hd.symm⟩
      | vec xs =>
        simp only [Par.shape] at h
        by_cases h1 : xs.length = 1
        · rw [if_pos h1] at h
          exact Or.inl ⟨_, (Except.ok.inj h).symm, hd.symm.trans h1⟩
        · rw [if_neg h1] at h
          have hd' : xs.length = d := hd
          rw [hd'] at h h1
          exact Or.inr ⟨_, (Except.ok.inj h).symm, h1⟩

theorem sortPairs_asc [LinearOrder K] (xs : List K) (As : List (Mat K)) (hx : xs.Pairwise (· < ·)) :
    sortPairs xs As = zip xs As := by
  unfold sortPairs
  apply Pairwise.insertionSort_eq
  induction xs generalizing As with
  | nil => simp
  | cons x xs ih =>
    cases As with
    | nil => simp
    | cons A As =>
      rw [zip_cons_cons, pairwise_cons]
      obtain ⟨h1, h2⟩ := pairwise_cons.1 hx
      exact ⟨fun y hy => (h1 _ (of_mem_zip hy).1).le, ih As h2⟩

theorem itpData_default [LinearOrder K] {ps : List (Par K)} {P : PArr K} (h : PArr.ofPars ps = .ok P) {d : Nat}
    (hd : paramsDim ps = .ok d) (ha : Ascending ps) (As : List (Mat K)) (hl : As.length = P.length)
    (c : Option ItpClass) : itpData c P As = (c.getD (defaultClass d), P, As) := by
  cases c with
  | some c => rfl
  | none =>
    rcases ofPars_dim h hd with ⟨xs, rfl, rfl⟩ | ⟨rows, rfl, h1⟩
    · simp only [itpData, sortPairs_asc xs As (ha xs h), Option.getD_none, defaultClass, if_true]
      have hl' : As.length = xs.length := hl
      rw [← unzip_fst, ← unzip_snd, unzip_zip hl'.symm]
    · simp [itpData, defaultClass, h1]

/-- Classes that `g` identifies are equal, or equal up to the default class, which does not matter for parameters in
ascending order. -/
def Recognises [LinearOrder K] (g : Option ItpClass → Option ItpClass) (d : Nat) (ps : List (Par K)) : Prop :=
  ∀ c c', g c = g c' → c = c' ∨ (c.getD (defaultClass d) = c'.getD (defaultClass d) ∧ Ascending ps)

theorem setBlock_same [AddMonoid K] [LinearOrder K] (lib : ItpLib K) {g : Option ItpClass → Option ItpClass}
    {d : Nat} {ps : List (Par K)} (hd : paramsDim ps = .ok d) {o o' : POp K} (h : o.Set g ps o')
    (hg : Recognises g d ps) (B : Mat K) :
    (o.setBlock lib B).2 = (o'.setBlock lib B).2 ∧
    ((o.setBlock lib B).2 = .ok () → (o.setBlock lib B).1 = (o'.setBlock lib B).1) := by
  cases h with
  | same => exact ⟨rfl, fun _ => rfl⟩
  | itp k P p c c' hP hc =>
    rcases hg c c' hc with e | ⟨hc, ha⟩
    · rw [e]
      exact ⟨rfl, fun _ => rfl⟩
    · simp only [POp.setBlock, Interp.setEntries]
      cases hA : parseEntries k P.length (.block B) with
      | error e => exact ⟨rfl, fun h => by cases h⟩
      | ok As =>
        have hl : As.length = P.length := by
          simp only [parseEntries, bind, Except.bind] at hA
          split at hA
          · cases hA
          · split at hA
            · cases hA
            · split at hA
              · cases hA
              · rename_i hn
                have := mapM_ok_length hA
                rw [this]
                exact not_not.1 hn
        simp only [Interp.setInterpolator, itpData_default hP hd ha As hl, hc]
        cases lib.build (c'.getD (defaultClass d)) P As with
        | error e => exact ⟨rfl, fun h => by cases h⟩
        | ok u => exact ⟨rfl, fun _ => rfl⟩

theorem pExtract_same [AddMonoid K] [LinearOrder K] (lib : ItpLib K) {g : Option ItpClass → Option ItpClass}
    {d : Nat} {ps : List (Par K)} (hd : paramsDim ps = .ok d) {l l' : List (PSlot K)}
    (h : Forall₂ (SetSlot g ps) l l') (hg : Recognises g d ps) (n r m i : Nat) (O : Mat K) :
    (pExtract lib n r m O i l).2 = (pExtract lib n r m O i l').2 ∧
    ((pExtract lib n r m O i l).2 = .ok () → (pExtract lib n r m O i l).1 = (pExtract lib n r m O i l').1) := by
  induction h generalizing i with
  | nil => exact ⟨rfl, fun _ => rfl⟩
  | @cons s t ss ts hst _ ih =>
    obtain ⟨o, i1⟩ := s
    obtain ⟨o', i2⟩ := t
    obtain ⟨h1, h2, h3⟩ := hst
    simp only at h1 h2 h3
    subst h1
    simp only [pExtract]
    cases i1 with
    | false =>
      simp only [Bool.false_eq_true, if_false]
      obtain ⟨e1, e2⟩ := ih i
      exact ⟨e1, fun hok => by rw [e2 hok, h3 rfl]⟩
    | true =>
      simp only [if_true, set_facts h2]
      obtain ⟨g1, g2⟩ := setBlock_same lib hd h2 hg (O.colSlice i (i + o'.dim n r m))
      generalize o.setBlock lib (O.colSlice i (i + o'.dim n r m)) = x at g1 g2 ⊢
      generalize o'.setBlock lib (O.colSlice i (i + o'.dim n r m)) = y at g1 g2 ⊢
      obtain ⟨a, x⟩ := x
      obtain ⟨b, y⟩ := y
      simp only at g1 g2
      subst g1
      cases x with
      | error e => exact ⟨rfl, fun h => by cases h⟩
      | ok u =>
        obtain ⟨e1, e2⟩ := ih (i + o'.dim n r m)
        refine ⟨e1, fun hok => ?_⟩
        simp only
        rw [e2 hok, g2 rfl]

/-! ### What training leaves unchanged -/

/-- A model that differs from another one at most in what training sets. -/
structure Kept (g : Option ItpClass → Option ItpClass) (d : Nat) (M N : PModel K S) : Prop where
  slots : N.slots.map (PSlot.mould g d) = M.slots.map (PSlot.mould g d)
  hasIn : N.hasInputs = M.hasInputs
  intr : N.intrusive = M.intrusive
  solver : N.solver = M.solver

theorem Kept.refl (g : Option ItpClass → Option ItpClass) (d : Nat) (M : PModel K S) : Kept g d M M :=
  ⟨rfl, rfl, rfl, rfl⟩

theorem Kept.trans {g : Option ItpClass → Option ItpClass} {d : Nat} {M N P : PModel K S} (h : Kept g d M N)
    (h' : Kept g d N P) : Kept g d M P :=
  ⟨h'.slots.trans h.slots, h'.hasIn.trans h.hasIn, h'.intr.trans h.intr, h'.solver.trans h.solver⟩

theorem slot_mould_clear (g : Option ItpClass → Option ItpClass) (d : Nat) (s : PSlot K) :
    PSlot.mould g d (if s.infer then { s with op := s.op.clear } else s) = s.mould g d := by
  obtain ⟨o, i⟩ := s
  cases i with
  | false => rfl
  | true => simp only [PSlot.mould, if_true, mould_clear]

theorem clear_kept (g : Option ItpClass → Option ItpClass) (d : Nat) (M : PModel K S) : Kept g d M M.clear.1 := by
  have e : (M.slots.map fun s => if s.infer then { s with op := s.op.clear } else s).map (PSlot.mould g d) =
      M.slots.map (PSlot.mould g d) := by
    rw [map_map]
    exact map_congr_left fun s _ => slot_mould_clear g d s
  rw [PModel.clear]
  split
  · exact ⟨e, rfl, rfl, rfl⟩
  · split
    · exact ⟨e, rfl, rfl, rfl⟩
    · exact ⟨e, rfl, rfl, rfl⟩

theorem sync_kept (g : Option ItpClass → Option ItpClass) (d : Nat) (hd : 1 ≤ d) (M : PModel K S) :
    Kept g d M (M.sync (some d)).1 := by
  obtain ⟨c1, c2⟩ := commonParamDim_closed M.ops d
  rw [PModel.sync]
  by_cases h : ∀ o ∈ M.ops, ∀ x, o.paramDim = some x → x = d
  · rw [c1 h]
    simp only [fillParamDim_closed d hd]
    refine ⟨?_, rfl, rfl, rfl⟩
    simp only [map_map]
    exact map_congr_left fun s _ => slot_mould_fill g d s
  · rw [c2 h]
    exact Kept.refl g d M

theorem setStateDim_kept (g : Option ItpClass → Option ItpClass) (d : Nat) (M : PModel K S) (r : Nat) :
    Kept g d M (M.setStateDim r).1 := by
  rw [PModel.setStateDim]
  split
  · exact Kept.refl g d M
  · exact ⟨rfl, rfl, rfl, rfl⟩

theorem setInputDim_kept (g : Option ItpClass → Option ItpClass) (d : Nat) (M : PModel K S) (m : Nat) :
    Kept g d M (M.setInputDim m).1 := by
  rw [PModel.setInputDim]
  split
  · exact Kept.refl g d M
  · split
    · exact Kept.refl g d M
    · exact ⟨rfl, rfl, rfl, rfl⟩

theorem learnStateDim_kept (g : Option ItpClass → Option ItpClass) (d : Nat) (M : PModel K S)
    (Q : List (Nat × List (List K))) : Kept g d M (M.learnStateDim Q).1 := by
  unfold PModel.learnStateDim
  split
  · exact Kept.refl g d M
  · split
    · exact Kept.refl g d M
    · exact setStateDim_kept g d M _

theorem processInputs_kept (g : Option ItpClass → Option ItpClass) (d : Nat) (M : PModel K S) (n : Nat)
    (Q : List (Nat × List (List K))) (U : Option (List (Arg K))) : Kept g d M (M.processInputs n Q U).1 := by
  unfold PModel.processInputs
  split
  · cases U with
    | none => exact Kept.refl g d M
    | some U =>
      simp only
      have h : Kept g d M (M.learnInputDim (U.map atleast2d)).1 := by
        unfold PModel.learnInputDim
        split
        · split
          · exact Kept.refl g d M
          · exact setInputDim_kept g d M _
        · exact Kept.refl g d M
      generalize M.learnInputDim (U.map atleast2d) = x at h ⊢
      obtain ⟨M1, x⟩ := x
      cases x with
      | error e => exact h
      | ok u =>
        simp only
        split
        · exact h
        · exact h
  · exact Kept.refl g d M

theorem process_kept [CommRing K] (lib : ItpLib K) (g : Option ItpClass → Option ItpClass) (d : Nat) (hd : 1 ≤ d)
    (M : PModel K S) (ps : List (Par K)) (hps : ∀ d', paramsDim ps = .ok d' → d' = d) (states lhs : List (Arg K))
    (inputs : Option (List (Arg K))) : Kept g d M (M.processFitArgs lib ps states lhs inputs).1 := by
  cases hp : paramsDim ps with
  | error e =>
    rw [process_error_eq lib M ps e hp]
    exact clear_kept g d M
  | ok d' =>
    obtain rfl := hps d' hp
    rw [process_ok_eq lib M ps d' hp]
    have h : Kept g d' M (M.prepare d').1 := by
      rw [PModel.prepare]
      have h := clear_kept g d' M
      generalize M.clear = x at h ⊢
      obtain ⟨M1, x⟩ := x
      cases x with
      | error e => exact h
      | ok u => exact h.trans (sync_kept g d' hd M1)
    generalize M.prepare d' = x at h ⊢
    obtain ⟨M1, x⟩ := x
    cases x with
    | error e => exact h
    | ok u =>
      refine h.trans ?_
      simp only
      unfold PModel.restArgs
      have h := learnStateDim_kept g d' M1 (states.map atleast2d)
      generalize M1.learnStateDim (states.map atleast2d) = x at h ⊢
      obtain ⟨M2, x⟩ := x
      cases x with
      | error e => exact h
      | ok u =>
        simp only
        split
        · exact h
        · have h' := h.trans (processInputs_kept g d' M2 ps.length (states.map atleast2d) inputs)
          generalize M2.processInputs ps.length (states.map atleast2d) inputs = x at h' ⊢
          obtain ⟨M3, x⟩ := x
          cases x with
          | error e => exact h'
          | ok U =>
            simp only
            split
            · exact h'
            · exact h'

/-- Known interpolated operators have entries, so their training parameters cannot be changed. -/
def Sealed (l : List (PSlot K)) : Prop :=
  ∀ s ∈ l, s.infer = false → ∀ t, s.op = .itp t → t.itp.isSome = true

theorem mould_mem {g : Option ItpClass → Option ItpClass} {d : Nat} {l l' : List (PSlot K)}
    (h : l'.map (PSlot.mould g d) = l.map (PSlot.mould g d)) {s : PSlot K} (hs : s ∈ l') :
    ∃ t ∈ l, t.mould g d = s.mould g d := by
  have : s.mould g d ∈ l.map (PSlot.mould g d) := by rw [← h]; exact mem_map_of_mem hs
  exact mem_map.1 this

theorem fill_itp {d : Nat} {o : POp K} {t : Interp K} (h : o.fill d = .itp t) :
    ∃ t', o = .itp t' ∧ t'.itp = t.itp := by
  cases o with
  | np o => cases h
  | aff a => cases h
  | itp t' =>
    refine ⟨t', rfl, ?_⟩
    simp only [POp.fill, POp.itp.injEq] at h
    rw [← h]
    split <;> rfl

theorem Sealed.kept {g : Option ItpClass → Option ItpClass} {d : Nat} {l l' : List (PSlot K)}
    (h : l'.map (PSlot.mould g d) = l.map (PSlot.mould g d)) (hl : Sealed l) : Sealed l' := by
  intro s hs hi t ht
  obtain ⟨s', hs', e⟩ := mould_mem h hs
  obtain ⟨o, i⟩ := s
  obtain ⟨o', i'⟩ := s'
  simp only [PSlot.mould, PSlot.mk.injEq] at e
  obtain ⟨e1, e2⟩ := e
  simp only at hi ht
  subst hi
  subst e2
  subst ht
  simp only [Bool.false_eq_true, if_false] at e1
  obtain ⟨t2, h2, h3⟩ := fill_itp (d := d) (o := .itp t) rfl
  obtain ⟨t1, h1, h1'⟩ := fill_itp (t := if t.p.isNone then { t with p := some d } else t) e1
  have := hl _ hs' rfl t1 h1
  rw [h1'] at this
  revert this
  split <;> exact id

/-- The class that training chooses is not distinguished from the one that is given. -/
def Fixes [LinearOrder K] (g : Option ItpClass → Option ItpClass) (ps : List (Par K)) (c : Option ItpClass) : Prop :=
  ∀ P As, PArr.ofPars ps = .ok P → g (some (itpData c P As).1) = g c

/-- The same for all interpolated operators to infer. -/
def FixSlots [LinearOrder K] (g : Option ItpClass → Option ItpClass) (ps : List (Par K)) (l : List (PSlot K)) : Prop :=
  ∀ s ∈ l, s.infer = true → ∀ t, s.op = .itp t → Fixes g ps t.cls

theorem FixSlots.kept [LinearOrder K] {g : Option ItpClass → Option ItpClass} {ps : List (Par K)} {d : Nat}
    (hg : ∀ c c', g c = g c' → Fixes g ps c → Fixes g ps c') {l l' : List (PSlot K)}
    (h : l'.map (PSlot.mould g d) = l.map (PSlot.mould g d)) (hl : FixSlots g ps l) : FixSlots g ps l' := by
  intro s hs hi t ht
  obtain ⟨s', hs', e⟩ := mould_mem h hs
  obtain ⟨o, i⟩ := s
  obtain ⟨o', i'⟩ := s'
  simp only [PSlot.mould, PSlot.mk.injEq] at e
  obtain ⟨e1, e2⟩ := e
  simp only at hi ht
  subst hi
  subst e2
  subst ht
  simp only [if_true] at e1
  cases o' with
  | np o => cases e1
  | aff a => cases e1
  | itp t' =>
    simp only [POp.mould, POp.itp.injEq, Interp.mk.injEq, true_and, and_true] at e1
    exact hg _ _ e1.2 (hl _ hs' rfl t' rfl)

/-- The training parameters of the interpolated operators to infer are `ps`. -/
def Primed (ps : List (Par K)) (l : List (PSlot K)) : Prop :=
  ∀ s ∈ l, s.infer = true → ∀ t, s.op = .itp t → ∃ P, t.params = some P ∧ PArr.ofPars ps = .ok P

theorem setAllParams_mould (g : Option ItpClass → Option ItpClass) (d : Nat) (ps : List (Par K)) (l : List (PSlot K))
    (hl : Sealed l) : (setAllParams ps l).1.map (PSlot.mould g d) = l.map (PSlot.mould g d) ∧
      ((setAllParams ps l).2 = .ok () → Primed ps (setAllParams ps l).1) := by
  induction l with
  | nil => exact ⟨rfl, fun _ s hs => by cases hs⟩
  | cons s ss ih =>
    obtain ⟨ih1, ih2⟩ := ih fun x hx => hl x (mem_cons_of_mem _ hx)
    have hcons : ∀ {a : PSlot K} {as : List (PSlot K)}, Primed ps as →
        (a.infer = true → ∀ t, a.op = .itp t → ∃ P, t.params = some P ∧ PArr.ofPars ps = .ok P) → Primed ps (a :: as) :=
      fun h1 h2 x hx => by
        rcases mem_cons.1 hx with rfl | hx
        · exact h2
        · exact h1 x hx
    obtain ⟨o, i⟩ := s
    cases o with
    | np o =>
      simp only [setAllParams, map_cons, ih1, true_and]
      exact fun h => hcons (ih2 h) fun _ t ht => by cases ht
    | aff a =>
      simp only [setAllParams, map_cons, ih1, true_and]
      exact fun h => hcons (ih2 h) fun _ t ht => by cases ht
    | itp t =>
      simp only [setAllParams]
      cases ht : t.setParams ps with
      | error e => exact ⟨rfl, fun h => by cases h⟩
      | ok t' =>
        have hi : i = true := by
          cases i with
          | true => rfl
          | false =>
            have := hl _ mem_cons_self rfl t rfl
            simp only [Interp.setParams, this, if_true] at ht
            cases ht
        subst hi
        have ⟨P, hP, hP'⟩ : ∃ P, PArr.ofPars ps = .ok P ∧ t' = { t with params := some P, p := some P.dim } := by
          simp only [Interp.setParams] at ht
          split at ht
          · cases ht
          · split at ht
            · cases ht
            · rename_i P hP
              exact ⟨P, hP, (Except.ok.inj ht).symm⟩
        subst hP'
        simp only [map_cons, ih1]
        refine ⟨rfl, fun h => hcons (ih2 h) fun _ t ht => ?_⟩
        simp only [POp.itp.injEq] at ht
        subst ht
        exact ⟨P, rfl, hP⟩

theorem setBlock_kept [AddMonoid K] [LinearOrder K] (lib : ItpLib K) (g : Option ItpClass → Option ItpClass)
    (ps : List (Par K)) (o : POp K) (B : Mat K)
    (hp : ∀ t, o = .itp t → (∃ P, t.params = some P ∧ PArr.ofPars ps = .ok P) ∧ Fixes g ps t.cls) :
    (o.setBlock lib B).1.mould g = o.mould g := by
  cases o with
  | np o =>
    simp only [POp.setBlock]
    split <;> rfl
  | aff a =>
    simp only [POp.setBlock]
    cases h : a.setEntries (.block B) with
    | error e => rfl
    | ok a' =>
      simp only [Affine.setEntries] at h
      split at h
      · cases h
      · rw [← Except.ok.inj h]
        rfl
  | itp t =>
    obtain ⟨⟨P, hP, hP'⟩, hf⟩ := hp t rfl
    simp only [POp.setBlock, Interp.setEntries, hP]
    split
    · rfl
    · rename_i As _
      simp only [Interp.setInterpolator, hP]
      split
      · rfl
      · simp only [POp.mould, hf P As hP']

theorem pExtract_mould [AddMonoid K] [LinearOrder K] (lib : ItpLib K) (g : Option ItpClass → Option ItpClass) (d : Nat)
    (ps : List (Par K)) (l : List (PSlot K)) (hp : Primed ps l) (hf : FixSlots g ps l) (n r m i : Nat) (O : Mat K) :
    (pExtract lib n r m O i l).1.map (PSlot.mould g d) = l.map (PSlot.mould g d) := by
  induction l generalizing i with
  | nil => rfl
  | cons s ss ih =>
    have ih := ih (fun x hx => hp x (mem_cons_of_mem _ hx)) (fun x hx => hf x (mem_cons_of_mem _ hx))
    have h1 := hp s mem_cons_self
    have h2 := hf s mem_cons_self
    obtain ⟨o, b⟩ := s
    cases b with
    | false =>
      simp only [pExtract, Bool.false_eq_true, if_false, map_cons, ih]
    | true =>
      simp only [pExtract, if_true]
      have h := setBlock_kept lib g ps o (O.colSlice i (i + o.dim n r m)) fun t ht => ⟨h1 rfl t ht, h2 rfl t ht⟩
      generalize o.setBlock lib (O.colSlice i (i + o.dim n r m)) = x at h ⊢
      obtain ⟨o', x⟩ := x
      simp only at h
      cases x with
      | error e => simp only [map_cons, PSlot.mould, if_true, h]
      | ok u => simp only [map_cons, ih, PSlot.mould, if_true, h]

/-- Whatever the outcome, training changes nothing but what it would clear. -/
theorem pfit_kept [CommRing K] [LinearOrder K] (lib : ItpLib K) (I : SolverI K S) (cfg : S → C)
    (hI : I.Memoryless cfg) (g : Option ItpClass → Option ItpClass) (d : Nat) (hd : 1 ≤ d) (M : PModel K S)
    (ps : List (Par K)) (hps : ∀ d', paramsDim ps = .ok d' → d' = d) (hseal : Sealed M.slots)
    (hg : ∀ c c', g c = g c' → Fixes g ps c → Fixes g ps c') (hfix : FixSlots g ps M.slots)
    (states lhs : List (Arg K)) (inputs : Option (List (Arg K))) :
    (M.fit lib I ps states lhs inputs).1.slots.map (PSlot.mould g d) = M.slots.map (PSlot.mould g d) ∧
    (M.fit lib I ps states lhs inputs).1.hasInputs = M.hasInputs ∧
    (M.fit lib I ps states lhs inputs).1.intrusive = M.intrusive ∧
    (M.fit lib I ps states lhs inputs).1.solver.map cfg = M.solver.map cfg := by
  rw [PModel.fit]
  split
  · exact ⟨rfl, rfl, rfl, rfl⟩
  · rename_i hint
    have hint : M.intrusive = false := by simpa using hint
    rw [PModel.fitSolver]
    have h := process_kept lib g d hd M ps hps states lhs inputs
    generalize M.processFitArgs lib ps states lhs inputs = x at h ⊢
    obtain ⟨M1, x⟩ := x
    cases x with
    | error e => exact ⟨h.slots, h.hasIn, h.intr, congrArg _ h.solver⟩
    | ok u =>
      obtain ⟨data, Z⟩ := u
      simp only
      obtain ⟨k1, k2⟩ := setAllParams_mould g d ps M1.slots (hseal.kept h.slots)
      generalize setAllParams ps M1.slots = x at k1 k2 ⊢
      obtain ⟨sl, x⟩ := x
      simp only at k1 k2
      have k3 := k1.trans h.slots
      cases x with
      | error e => exact ⟨k3, h.hasIn, h.intr, congrArg _ h.solver⟩
      | ok u =>
        simp only
        cases PModel.dataMatrix { M1 with slots := sl } data with
        | error e => exact ⟨k3, h.hasIn, h.intr, congrArg _ h.solver⟩
        | ok D =>
          simp only
          have hs := h.solver
          simp only at hs
          cases hsol : M1.solver with
          | none => exact ⟨k3, h.hasIn, h.intr, by rw [← hs, hsol]⟩
          | some s =>
            have hc : ∀ s', (I.fit s D Z.flatten).1 = s' → Option.map cfg (some s') = M.solver.map cfg := by
              rintro _ rfl
              rw [← hs, hsol, Option.map_some, Option.map_some, hI.keep]
            simp only
            generalize I.fit s D Z.flatten = x at hc ⊢
            obtain ⟨s', x⟩ := x
            replace hc : Option.map cfg (some s') = M.solver.map cfg := hc s' rfl
            cases x with
            | error e => exact ⟨k3, h.hasIn, h.intr, hc⟩
            | ok u =>
              simp only [PModel.refit]
              split
              · exact ⟨k3, h.hasIn, h.intr, hc⟩
              · split
                · exact ⟨k3, h.hasIn, h.intr, hc⟩
                · refine ⟨?_, h.hasIn, h.intr, hc⟩
                  exact (pExtract_mould lib g d ps sl (k2 rfl) (hfix.kept hg k3) _ _ _ _ _).trans k3

/-! ### Training again -/

/-- What two trained models have in common. -/
structure PSame (M N : PModel K S) : Prop where
  slots : M.slots = N.slots
  hasIn : M.hasInputs = N.hasInputs
  r : M.r = N.r
  m : M.m = N.m
  p : M.p = N.p
  s : M.s = N.s

/-- Training treats models alike that look the same when everything learned is taken away. -/
theorem pfit_same [CommRing K] [LinearOrder K] (lib : ItpLib K) (I : SolverI K S) (cfg : S → C)
    (hI : I.Memoryless cfg) (g : Option ItpClass → Option ItpClass) (d : Nat) (hd : 1 ≤ d) {M N : PModel K S}
    (hs : M.slots.map (PSlot.mould g d) = N.slots.map (PSlot.mould g d)) (hin : M.hasInputs = N.hasInputs)
    (hM : M.intrusive = false) (hN : N.intrusive = false) (hsol : M.solver.map cfg = N.solver.map cfg)
    (ps : List (Par K)) (hps : ∀ d', paramsDim ps = .ok d' → d' = d) (hg : Recognises g d ps)
    (states lhs : List (Arg K)) (inputs : Option (List (Arg K))) :
    SameCall PSame (M.fit lib I ps states lhs inputs) (N.fit lib I ps states lhs inputs) := by
  simp only [PModel.fit, hM, hN, Bool.false_eq_true, if_false, PModel.fitSolver]
  obtain ⟨h1, h2⟩ := process_same lib cfg g d hd hs hin (hM.trans hN.symm) hsol ps hps states lhs inputs
  have hdim : ∀ a, (N.processFitArgs lib ps states lhs inputs).2 = .ok a → paramsDim ps = .ok d := by
    intro a ha
    cases hp : paramsDim ps with
    | error e =>
      rw [process_error_eq lib N ps e hp] at ha
      cases hc : N.clear.2 <;> simp [hc] at ha
    | ok d' => rw [hps d' hp]
  have hint := (process_kept lib g d hd N ps hps states lhs inputs).intr
  generalize M.processFitArgs lib ps states lhs inputs = x at h1 h2 ⊢
  generalize N.processFitArgs lib ps states lhs inputs = y at h1 h2 hdim hint ⊢
  obtain ⟨M1, x⟩ := x
  obtain ⟨N1, y⟩ := y
  simp only at h1 h2 hint
  subst h1
  cases x with
  | error e => exact ⟨rfl, fun a h => by cases h⟩
  | ok u =>
    obtain ⟨data, Z⟩ := u
    have ht := h2 _ rfl
    have hdd := hdim _ rfl
    simp only
    obtain ⟨g1, g2⟩ := setAllParams_alike ht.slots ps
    generalize setAllParams ps M1.slots = x at g1 g2 ⊢
    generalize setAllParams ps N1.slots = y at g1 g2 ⊢
    obtain ⟨sm, x⟩ := x
    obtain ⟨sn, y⟩ := y
    simp only at g1 g2
    subst g1
    cases x with
    | error e => exact ⟨rfl, fun a h => by cases h⟩
    | ok u =>
      have hset := g2 rfl
      simp only
      have hD := dataMatrix_same (M := { M1 with slots := sm }) (N := { N1 with slots := sn }) hset ht.r ht.m data
      simp only [hD]
      cases PModel.dataMatrix { N1 with slots := sn } data with
      | error e => exact ⟨rfl, fun a h => by cases h⟩
      | ok D =>
        simp only
        have hc := ht.solver
        cases hsm : M1.solver with
        | none =>
          rw [hsm] at hc
          cases hsn : N1.solver with
          | none => exact ⟨rfl, fun a h => by cases h⟩
          | some s => rw [hsn] at hc; cases hc
        | some s =>
          rw [hsm] at hc
          cases hsn : N1.solver with
          | none => rw [hsn] at hc; cases hc
          | some s' =>
            rw [hsn] at hc
            have hc' : cfg s = cfg s' := Option.some.inj hc
            obtain ⟨f1, f2⟩ := hI.det s s' D Z.flatten hc'
            simp only
            generalize I.fit s D Z.flatten = x at f1 f2 ⊢
            generalize I.fit s' D Z.flatten = y at f1 f2 ⊢
            obtain ⟨s1, x⟩ := x
            obtain ⟨s2, y⟩ := y
            simp only at f1 f2
            subst f1
            cases x with
            | error e => exact ⟨rfl, fun a h => by cases h⟩
            | ok u =>
              have hsolve := f2 rfl
              simp only [PModel.refit, hsolve]
              rw [ht.intr, hint, hN]
              simp only [Bool.false_eq_true, if_false]
              cases I.solve s2 with
              | error e => exact ⟨rfl, fun a h => by cases h⟩
              | ok Ohat =>
                simp only [ht.r, ht.m]
                obtain ⟨k1, k2⟩ := pExtract_same lib hdd hset hg ps.length (N1.r.getD 0) (N1.m.getD 0) 0 Ohat
                exact ⟨k1, fun a ha => ⟨k2 ha, ht.hasIn, rfl, rfl, ht.p, rfl⟩⟩

end Opinf
