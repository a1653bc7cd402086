import Verif.Model.Shared

/-!
# What calls on a parametric model leave alone

Every method keeps the list of operators, their roles and whether they are parametric; nonparametric operators
that are not to be inferred keep their contents.
-/

namespace Opinf

open List

variable {K S : Type}

/-- An operator before and after a call. -/
def PSlot.Kept (s s' : PSlot K) : Prop :=
  s'.infer = s.infer ∧ s'.op.isParam = s.op.isParam ∧ (s.op.isParam = false → s.infer = false → s'.op = s.op)

/-- The operators before and after a call. -/
def PModel.Kept (M N : PModel K S) : Prop := Forall₂ PSlot.Kept M.slots N.slots

theorem PSlot.Kept.refl (s : PSlot K) : s.Kept s := ⟨rfl, rfl, fun _ _ => rfl⟩

theorem PSlot.Kept.trans {s t u : PSlot K} (h : s.Kept t) (k : t.Kept u) : s.Kept u := by
  obtain ⟨h1, h2, h3⟩ := h
  obtain ⟨k1, k2, k3⟩ := k
  refine ⟨k1.trans h1, k2.trans h2, fun a b => ?_⟩
  rw [k3 (h2.trans a) (h1.trans b), h3 a b]

theorem keptAll_refl (ss : List (PSlot K)) : Forall₂ PSlot.Kept ss ss := forall₂_same.2 fun s _ => .refl s

theorem keptAll_trans {a b c : List (PSlot K)} (h : Forall₂ PSlot.Kept a b) (k : Forall₂ PSlot.Kept b c) :
    Forall₂ PSlot.Kept a c := by
  induction h generalizing c with
  | nil => cases k; exact .nil
  | cons h1 _ ih =>
    cases k with
    | cons k1 k2 => exact .cons (h1.trans k1) (ih k2)

theorem PModel.Kept.refl (M : PModel K S) : M.Kept M := keptAll_refl _

theorem PModel.Kept.trans {M N P : PModel K S} (h : M.Kept N) (k : N.Kept P) : M.Kept P := keptAll_trans h k

theorem PModel.Kept.of_slots {M N : PModel K S} (h : N.slots = M.slots) : M.Kept N := by
  unfold PModel.Kept; rw [h]; exact keptAll_refl _

theorem POp.clear_isParam (o : POp K) : o.clear.isParam = o.isParam := by cases o <;> rfl

theorem POp.setParamDim_isParam {o o' : POp K} {p : Nat} (h : o.setParamDim p = .ok o') :
    o'.isParam = o.isParam := by
  cases o with
  | np o => simp only [POp.setParamDim, Except.ok.injEq] at h; subst h; rfl
  | aff a =>
    simp only [POp.setParamDim] at h
    split at h
    · simp at h
    · simp only [Except.ok.injEq] at h; subst h; rfl
  | itp t =>
    simp only [POp.setParamDim] at h
    split at h
    · simp at h
    · simp only [Except.ok.injEq] at h; subst h; rfl

theorem fillParamDim_kept (p : Nat) (ss : List (PSlot K)) : Forall₂ PSlot.Kept ss (fillParamDim p ss).1 := by
  induction ss with
  | nil => exact .nil
  | cons s ss ih =>
    unfold fillParamDim
    split
    · rename_i hp
      split
      · exact keptAll_refl _
      · rename_i o ho
        refine .cons ⟨rfl, POp.setParamDim_isParam ho, fun h _ => ?_⟩ ih
        rw [h] at hp
        simp at hp
    · exact .cons (.refl s) ih

theorem PModel.clear_kept (M : PModel K S) : M.Kept M.clear.1 := by
  have key : Forall₂ PSlot.Kept M.slots
      (M.slots.map fun s => if s.infer then { s with op := s.op.clear } else s) := by
    rw [forall₂_map_right_iff]
    refine forall₂_same.2 fun s _ => ?_
    split
    · rename_i hi
      exact ⟨rfl, POp.clear_isParam _, fun _ h => by rw [h] at hi; cases hi⟩
    · exact .refl s
  unfold PModel.clear PModel.Kept
  simp only
  split
  · exact key
  · split
    · exact key
    · exact key

theorem PModel.sync_kept (M : PModel K S) (d : Option Nat) : M.Kept (M.sync d).1 := by
  unfold PModel.sync
  split
  · exact .refl M
  · exact .of_slots rfl
  · rename_i p _
    have h := fillParamDim_kept p M.slots
    split
    · rename_i h2; rw [h2] at h; exact h
    · rename_i h2; rw [h2] at h; exact h

theorem PModel.setStateDim_slots (M : PModel K S) (r : Nat) : (M.setStateDim r).1.slots = M.slots := by
  unfold PModel.setStateDim; split <;> rfl

theorem PModel.setInputDim_slots (M : PModel K S) (m : Nat) : (M.setInputDim m).1.slots = M.slots := by
  unfold PModel.setInputDim; split
  · rfl
  · split <;> rfl

theorem PModel.learnStateDim_slots (M : PModel K S) (X : List (Nat × List (List K))) :
    (M.learnStateDim X).1.slots = M.slots := by
  unfold PModel.learnStateDim
  split
  · rfl
  · split
    · rfl
    · exact M.setStateDim_slots _

theorem PModel.learnInputDim_slots (M : PModel K S) (X : List (Nat × List (List K))) :
    (M.learnInputDim X).1.slots = M.slots := by
  unfold PModel.learnInputDim
  split
  · split
    · rfl
    · exact M.setInputDim_slots _
  · rfl

theorem PModel.processInputs_slots (M : PModel K S) (n : Nat) (X : List (Nat × List (List K)))
    (inputs : Option (List (Arg K))) : (M.processInputs n X inputs).1.slots = M.slots := by
  unfold PModel.processInputs
  split
  · split
    · rfl
    · rename_i us
      have h := M.learnInputDim_slots (us.map atleast2d)
      split
      · rename_i h2; rw [h2] at h; exact h
      · rename_i h2; rw [h2] at h
        split <;> exact h
  · rfl

theorem PModel.processFitArgs_kept [CommRing K] (lib : ItpLib K) (M : PModel K S) (ps : List (Par K))
    (states lhs : List (Arg K)) (inputs : Option (List (Arg K))) :
    M.Kept (M.processFitArgs lib ps states lhs inputs).1 := by
  unfold PModel.processFitArgs
  have h1 := M.clear_kept
  split
  · rename_i h; rw [h] at h1; exact h1
  · rename_i M1 h; rw [h] at h1
    split
    · exact h1
    · rename_i p _
      have h2 := M1.sync_kept (some p)
      split
      · rename_i h; rw [h] at h2; exact h1.trans h2
      · rename_i M2 h; rw [h] at h2
        have h3 := PModel.Kept.of_slots (M2.learnStateDim_slots (states.map atleast2d))
        split
        · rename_i h; rw [h] at h3; exact (h1.trans h2).trans h3
        · rename_i M3 h; rw [h] at h3
          have h123 := (h1.trans h2).trans h3
          split
          · exact h123
          · have h4 := PModel.Kept.of_slots (M3.processInputs_slots ps.length (states.map atleast2d) inputs)
            split
            · rename_i h; rw [h] at h4; exact h123.trans h4
            · rename_i M4 U h; rw [h] at h4
              split <;> exact h123.trans h4

theorem setAllParams_kept (ps : List (Par K)) (ss : List (PSlot K)) :
    Forall₂ PSlot.Kept ss (setAllParams ps ss).1 := by
  induction ss with
  | nil => exact .nil
  | cons s ss ih =>
    unfold setAllParams
    split
    · rename_i t ht
      split
      · exact keptAll_refl _
      · refine .cons ⟨rfl, by rw [ht]; rfl, fun h _ => ?_⟩ ih
        rw [ht] at h; cases h
    · exact .cons (.refl s) ih

theorem PModel.fitSolver_kept [CommRing K] (lib : ItpLib K) (I : SolverI K S) (M : PModel K S)
    (ps : List (Par K)) (states lhs : List (Arg K)) (inputs : Option (List (Arg K))) :
    M.Kept (M.fitSolver lib I ps states lhs inputs).1 := by
  unfold PModel.fitSolver
  have h1 := M.processFitArgs_kept lib ps states lhs inputs
  split
  · rename_i h; rw [h] at h1; exact h1
  · rename_i M1 data Z h; rw [h] at h1
    have h2 := setAllParams_kept ps M1.slots
    split
    · rename_i h; rw [h] at h2; exact keptAll_trans h1 h2
    · rename_i slots h; rw [h] at h2
      have h12 : Forall₂ PSlot.Kept M.slots slots := keptAll_trans h1 h2
      simp only
      split
      · exact h12
      · split
        · exact h12
        · split
          · exact h12
          · exact h12

section

variable [LinearOrder K]

theorem POp.setBlock_isParam [AddMonoid K] (lib : ItpLib K) (o : POp K) (B : Mat K) :
    (o.setBlock lib B).1.isParam = o.isParam := by
  cases o with
  | np o => simp only [POp.setBlock]; split <;> rfl
  | aff a => simp only [POp.setBlock]; split <;> rfl
  | itp t => rfl

theorem pExtract_kept [AddMonoid K] (lib : ItpLib K) (n r m : Nat) (O : Mat K) (i : Nat) (ss : List (PSlot K)) :
    Forall₂ PSlot.Kept ss (pExtract lib n r m O i ss).1 := by
  induction ss generalizing i with
  | nil => exact .nil
  | cons s ss ih =>
    unfold pExtract
    split
    · rename_i hi
      have hb := POp.setBlock_isParam lib s.op (O.colSlice i (i + s.op.dim n r m))
      simp only
      split
      · rename_i o e he; rw [he] at hb
        exact .cons ⟨rfl, hb, fun _ h => by rw [h] at hi; cases hi⟩ (keptAll_refl _)
      · rename_i o he; rw [he] at hb
        exact .cons ⟨rfl, hb, fun _ h => by rw [h] at hi; cases hi⟩ (ih _)
    · exact .cons (.refl s) (ih _)

theorem PModel.refit_kept [AddMonoid K] (lib : ItpLib K) (I : SolverI K S) (M : PModel K S) :
    M.Kept (M.refit lib I).1 := by
  unfold PModel.refit
  split
  · exact .refl M
  · split
    · exact .refl M
    · split
      · exact .refl M
      · split
        · exact .refl M
        · exact pExtract_kept ..

theorem PModel.fit_kept [CommRing K] (lib : ItpLib K) (I : SolverI K S) (M : PModel K S) (ps : List (Par K))
    (states lhs : List (Arg K)) (inputs : Option (List (Arg K))) :
    M.Kept (M.fit lib I ps states lhs inputs).1 := by
  unfold PModel.fit
  split
  · exact .refl M
  · have h := M.fitSolver_kept lib I ps states lhs inputs
    split
    · rename_i h2; rw [h2] at h; exact h
    · rename_i M1 h2; rw [h2] at h; exact h.trans (M1.refit_kept lib I)

end

/-! ### A refused fit -/

/-- Nonparametric operators stay as they are. -/
def PSlot.Same (s s' : PSlot K) : Prop :=
  s'.infer = s.infer ∧ s'.op.isParam = s.op.isParam ∧ (s.op.isParam = false → s'.op = s.op)

theorem PSlot.Same.refl (s : PSlot K) : s.Same s := ⟨rfl, rfl, fun _ => rfl⟩

theorem sameAll_refl (ss : List (PSlot K)) : Forall₂ PSlot.Same ss ss := forall₂_same.2 fun s _ => .refl s

theorem sameAll_trans {a b c : List (PSlot K)} (h : Forall₂ PSlot.Same a b) (k : Forall₂ PSlot.Same b c) :
    Forall₂ PSlot.Same a c := by
  induction h generalizing c with
  | nil => cases k; exact .nil
  | cons h1 _ ih =>
    cases k with
    | cons k1 k2 =>
      refine .cons ⟨k1.1.trans h1.1, k1.2.1.trans h1.2.1, fun a => ?_⟩ (ih k2)
      rw [k1.2.2 (h1.2.1.trans a), h1.2.2 a]

theorem fillParamDim_same (p : Nat) (ss : List (PSlot K)) : Forall₂ PSlot.Same ss (fillParamDim p ss).1 := by
  induction ss with
  | nil => exact .nil
  | cons s ss ih =>
    unfold fillParamDim
    split
    · rename_i hp
      split
      · exact sameAll_refl _
      · rename_i o ho
        refine .cons ⟨rfl, POp.setParamDim_isParam ho, fun h => ?_⟩ ih
        rw [h] at hp
        simp at hp
    · exact .cons (.refl s) ih

theorem setAllParams_same (ps : List (Par K)) (ss : List (PSlot K)) :
    Forall₂ PSlot.Same ss (setAllParams ps ss).1 := by
  induction ss with
  | nil => exact .nil
  | cons s ss ih =>
    unfold setAllParams
    split
    · rename_i t ht
      split
      · exact sameAll_refl _
      · refine .cons ⟨rfl, by rw [ht]; rfl, fun h => ?_⟩ ih
        rw [ht] at h; cases h
    · exact .cons (.refl s) ih

theorem PModel.sync_same (M : PModel K S) (d : Option Nat) : Forall₂ PSlot.Same M.slots (M.sync d).1.slots := by
  unfold PModel.sync
  split
  · exact sameAll_refl _
  · exact sameAll_refl _
  · rename_i p _
    have h := fillParamDim_same p M.slots
    split
    · rename_i h2; rw [h2] at h; exact h
    · rename_i h2; rw [h2] at h; exact h

/-- Nonparametric operators to be inferred have no entries. -/
def PSlot.Emptied (s s' : PSlot K) : Prop :=
  s.op.isParam = false → s.infer = true → s'.op.plain.entries = none

theorem PModel.clear_emptied (M : PModel K S) :
    Forall₂ (fun s s' => s'.infer = s.infer ∧ s'.op.isParam = s.op.isParam ∧ s.Emptied s') M.slots
      M.clear.1.slots := by
  have key : Forall₂ (fun s s' => s'.infer = s.infer ∧ s'.op.isParam = s.op.isParam ∧ s.Emptied s') M.slots
      (M.slots.map fun s => if s.infer then { s with op := s.op.clear } else s) := by
    rw [forall₂_map_right_iff]
    refine forall₂_same.2 fun s _ => ?_
    split
    · refine ⟨rfl, POp.clear_isParam _, fun h _ => ?_⟩
      cases ho : s.op with
      | np o => rfl
      | aff a => rw [ho] at h; cases h
      | itp t => rw [ho] at h; cases h
    · rename_i hi
      exact ⟨rfl, rfl, fun _ h => absurd h hi⟩
  unfold PModel.clear
  simp only
  split
  · exact key
  · split
    · exact key
    · exact key

theorem emptied_of_same {a b c : List (PSlot K)}
    (h : Forall₂ (fun s s' => s'.infer = s.infer ∧ s'.op.isParam = s.op.isParam ∧ s.Emptied s') a b)
    (k : Forall₂ PSlot.Same b c) : Forall₂ PSlot.Emptied a c := by
  induction h generalizing c with
  | nil => cases k; exact .nil
  | cons h1 _ ih =>
    cases k with
    | cons k1 k2 =>
      refine .cons (fun a b => ?_) (ih k2)
      rw [k1.2.2 (h1.2.1.trans a)]
      exact h1.2.2 a b

theorem PModel.processFitArgs_same [CommRing K] (lib : ItpLib K) (M : PModel K S) (ps : List (Par K))
    (states lhs : List (Arg K)) (inputs : Option (List (Arg K))) :
    Forall₂ PSlot.Same M.clear.1.slots (M.processFitArgs lib ps states lhs inputs).1.slots := by
  unfold PModel.processFitArgs
  split
  · rename_i h; rw [h]; exact sameAll_refl _
  · rename_i M1 h; rw [h]
    split
    · exact sameAll_refl _
    · rename_i p _
      have h2 := M1.sync_same (some p)
      split
      · rename_i h; rw [h] at h2; exact h2
      · rename_i M2 h; rw [h] at h2
        have h3 := M2.learnStateDim_slots (states.map atleast2d)
        split
        · rename_i M3 _ h; rw [h] at h3
          have h3 : M3.slots = M2.slots := h3
          show Forall₂ PSlot.Same M1.slots M3.slots
          rw [h3]; exact h2
        · rename_i M3 h; rw [h] at h3
          have h3 : M3.slots = M2.slots := h3
          have h23 : Forall₂ PSlot.Same M1.slots M3.slots := by rw [h3]; exact h2
          split
          · exact h23
          · have h4 := M3.processInputs_slots ps.length (states.map atleast2d) inputs
            split
            · rename_i M4 _ h; rw [h] at h4
              have h4 : M4.slots = M3.slots := h4
              show Forall₂ PSlot.Same M1.slots M4.slots
              rw [h4]; exact h23
            · rename_i M4 U h; rw [h] at h4
              have h4 : M4.slots = M3.slots := h4
              have h24 : Forall₂ PSlot.Same M1.slots M4.slots := by rw [h4]; exact h23
              split <;> exact h24

theorem PModel.fitSolver_emptied [CommRing K] (lib : ItpLib K) (I : SolverI K S) (M : PModel K S)
    (ps : List (Par K)) (states lhs : List (Arg K)) (inputs : Option (List (Arg K))) :
    Forall₂ PSlot.Emptied M.slots (M.fitSolver lib I ps states lhs inputs).1.slots := by
  refine emptied_of_same M.clear_emptied ?_
  unfold PModel.fitSolver
  have h1 := M.processFitArgs_same lib ps states lhs inputs
  split
  · rename_i h; rw [h] at h1; exact h1
  · rename_i M1 data Z h; rw [h] at h1
    have h2 := setAllParams_same ps M1.slots
    split
    · rename_i h; rw [h] at h2; exact sameAll_trans h1 h2
    · rename_i slots h; rw [h] at h2
      have h12 : Forall₂ PSlot.Same M.clear.1.slots slots := sameAll_trans h1 h2
      simp only
      split
      · exact h12
      · split
        · exact h12
        · split
          · exact h12
          · exact h12

/-! ### Stores -/

theorem Store.set_get (h : Store K) (i j : Nat) (o : POp K) : (h.set i o).get j = if j = i then o else h.get j := rfl

theorem Store.write_next (h : Store K) (is : List Nat) (os : List (POp K)) : (h.write is os).next = h.next := by
  induction is generalizing h os with
  | nil => rfl
  | cons i is ih =>
    cases os with
    | nil => rfl
    | cons o os => exact ih _ _

theorem Store.write_other (h : Store K) (is : List Nat) (os : List (POp K)) (j : Nat) (hj : j ∉ is) :
    (h.write is os).get j = h.get j := by
  induction is generalizing h os with
  | nil => rfl
  | cons i is ih =>
    cases os with
    | nil => rfl
    | cons o os =>
      simp only [mem_cons, not_or] at hj
      simp only [Store.write]
      rw [ih _ _ hj.2, Store.set_get, if_neg hj.1]

theorem Store.write_map (h : Store K) (is : List Nat) (os : List (POp K)) (hd : is.Nodup)
    (hl : os.length = is.length) : is.map (h.write is os).get = os := by
  induction is generalizing h os with
  | nil => cases os with
    | nil => rfl
    | cons o os => simp at hl
  | cons i is ih =>
    cases os with
    | nil => simp at hl
    | cons o os =>
      simp only [nodup_cons] at hd
      simp only [length_cons, Nat.add_right_cancel_iff] at hl
      simp only [Store.write, map_cons]
      rw [ih _ _ hd.2 hl, Store.write_other _ _ _ _ hd.1, Store.set_get, if_pos rfl]

/-- What a call on a model with the operators `slots` leaves alone. -/
structure Store.Frame (slots : List HSlot) (h h' : Store K) : Prop where
  next : h.next ≤ h'.next
  isParam : ∀ j, j < h.next → (h'.get j).isParam = (h.get j).isParam
  other : ∀ j, j < h.next → j ∉ slots.map HSlot.ref → h'.get j = h.get j
  known : ∀ x ∈ slots, x.infer = false → (h.get x.ref).isParam = false → h'.get x.ref = h.get x.ref

theorem Store.Frame.refl (slots : List HSlot) (h : Store K) : Store.Frame slots h h :=
  ⟨le_refl _, fun _ _ => rfl, fun _ _ _ => rfl, fun _ _ _ _ => rfl⟩

theorem Store.Frame.trans {slots : List HSlot} {h h' h'' : Store K} (a : Store.Frame slots h h')
    (b : Store.Frame slots h' h'') (hl : ∀ x ∈ slots, x.ref < h.next) : Store.Frame slots h h'' := by
  refine ⟨a.next.trans b.next, fun j hj => ?_, fun j hj hn => ?_, fun x hx hi hp => ?_⟩
  · rw [b.isParam j (lt_of_lt_of_le hj a.next), a.isParam j hj]
  · rw [b.other j (lt_of_lt_of_le hj a.next) hn, a.other j hj hn]
  · rw [b.known x hx hi (by rw [a.isParam _ (hl x hx)]; exact hp), a.known x hx hi hp]

theorem forall2_imp_left {α β : Type*} {R Q : α → β → Prop} {l : List α} {m : List β} (h : Forall₂ R l m)
    (k : ∀ a ∈ l, ∀ b, R a b → Q a b) : Forall₂ Q l m := by
  induction h with
  | nil => exact .nil
  | cons h1 _ ih =>
    exact .cons (k _ mem_cons_self _ h1) (ih fun a ha => k a (mem_cons_of_mem _ ha))

/-- Evaluating the operators, as objects and as contents. -/
theorem evalRefs_spec [Semiring K] (lib : ItpLib K) (mu : Par K) (xs : List HSlot) (h : Store K)
    (hd : (xs.map HSlot.ref).Nodup) (hl : ∀ x ∈ xs, x.ref < h.next) :
    (xs.map fun x => (⟨(evalRefs lib mu h (xs.map HSlot.ref)).1.get x.ref, x.infer⟩ : PSlot K))
      = (evalOps lib mu (xs.map fun x => (⟨h.get x.ref, x.infer⟩ : PSlot K))).1 ∧
    ((evalRefs lib mu h (xs.map HSlot.ref)).2.map fun js =>
        js.map fun j => ((evalRefs lib mu h (xs.map HSlot.ref)).1.get j).plain)
      = (evalOps lib mu (xs.map fun x => (⟨h.get x.ref, x.infer⟩ : PSlot K))).2 ∧
    Store.Frame xs h (evalRefs lib mu h (xs.map HSlot.ref)).1 ∧
    (∀ x ∈ xs, (h.get x.ref).isParam = false →
      (evalRefs lib mu h (xs.map HSlot.ref)).1.get x.ref = h.get x.ref) ∧
    (∀ js, (evalRefs lib mu h (xs.map HSlot.ref)).2 = .ok js →
      Forall₂ (fun (x : HSlot) j => if (h.get x.ref).isParam then
        h.next ≤ j ∧ j < (evalRefs lib mu h (xs.map HSlot.ref)).1.next else j = x.ref) xs js) := by
  induction xs generalizing h with
  | nil =>
    refine ⟨rfl, rfl, .refl _ _, fun x hx => absurd hx not_mem_nil, fun js hj => ?_⟩
    simp only [map_nil, evalRefs, Except.ok.injEq] at hj
    subst hj
    exact .nil
  | cons x xs ih =>
    simp only [map_cons, nodup_cons] at hd
    have hlx := hl x mem_cons_self
    have hlt : ∀ y ∈ xs, y.ref < h.next := fun y hy => hl y (mem_cons_of_mem _ hy)
    have hxn : ∀ y ∈ xs, y.ref ≠ x.ref := fun y hy he => hd.1 (he ▸ mem_map_of_mem hy)
    simp only [map_cons, evalRefs, evalOps]
    by_cases hp : (h.get x.ref).isParam = true
    · rw [if_pos hp]
      have hop : ((h.get x.ref).evaluate lib mu).1.isParam = true := by
        cases ho : h.get x.ref with
        | np o => rw [ho] at hp; cases hp
        | aff a => rfl
        | itp t => rfl
      generalize hE : (h.get x.ref).evaluate lib mu = E at hop
      obtain ⟨o, r⟩ := E
      cases r with
      | error e =>
        simp only
        have hset : ∀ y ∈ xs, (h.set x.ref o).get y.ref = h.get y.ref := by
          intro y hy
          rw [Store.set_get, if_neg (hxn y hy)]
        refine ⟨?_, rfl, ⟨le_refl _, ?_, ?_, ?_⟩, ?_, ?_⟩
        · congr 1
          · rw [Store.set_get, if_pos rfl]
          · exact map_congr_left fun y hy => by rw [hset y hy]
        · intro j _
          rw [Store.set_get]
          split
          · rename_i hj; rw [hj, hp]; exact hop
          · rfl
        · intro j _ hn
          simp only [map_cons, mem_cons, not_or] at hn
          rw [Store.set_get, if_neg hn.1]
        · intro y hy _ hq
          rcases mem_cons.1 hy with rfl | hy
          · rw [hp] at hq; cases hq
          · exact hset y hy
        · intro y hy hq
          rcases mem_cons.1 hy with rfl | hy
          · rw [hp] at hq; cases hq
          · exact hset y hy
        · intro js hj; simp at hj
      | ok op =>
        simp only
        obtain ⟨h1, hh1⟩ : ∃ h1, h1 = (h.set x.ref o).alloc (.np op) := ⟨_, rfl⟩
        have hget : ∀ j, h1.get j = if j = h.next then .np op else if j = x.ref then o else h.get j := by
          intro j; rw [hh1]; rfl
        have hnext : h1.next = h.next + 1 := by rw [hh1]; rfl
        rw [← hh1]
        have hsame : ∀ y ∈ xs, h1.get y.ref = h.get y.ref := by
          intro y hy
          rw [hget, if_neg (Nat.ne_of_lt (hlt y hy)), if_neg (hxn y hy)]
        have htail : (xs.map fun y => (⟨h1.get y.ref, y.infer⟩ : PSlot K))
            = xs.map fun y => (⟨h.get y.ref, y.infer⟩ : PSlot K) :=
          map_congr_left fun y hy => by rw [hsame y hy]
        obtain ⟨i1, i2, i3, i4, i5⟩ := ih h1 hd.2 fun y hy => by rw [hnext]; exact Nat.lt_succ_of_lt (hlt y hy)
        rw [htail] at i1 i2
        generalize hR : evalRefs lib mu h1 (xs.map HSlot.ref) = R at i1 i2 i3 i4 i5
        generalize hQ : evalOps lib mu (xs.map fun y => (⟨h.get y.ref, y.infer⟩ : PSlot K)) = Q at i1 i2
        obtain ⟨h', r⟩ := R
        obtain ⟨ss, q⟩ := Q
        simp only at i1 i2 i3 i4 i5
        have hx' : h'.get x.ref = o := by
          rw [i3.other _ (by omega) hd.1, hget, if_neg (Nat.ne_of_lt hlx), if_pos rfl]
        have hn' : h'.get h.next = .np op := by
          rw [i3.other _ (by omega) ?_, hget, if_pos rfl]
          intro hm
          obtain ⟨y, hy, he⟩ := mem_map.1 hm
          exact absurd he (Nat.ne_of_lt (hlt y hy))
        have hpar : ∀ j, j < h.next → (h'.get j).isParam = (h.get j).isParam := by
          intro j hj
          rw [i3.isParam j (by omega), hget, if_neg (Nat.ne_of_lt hj)]
          split
          · rename_i he; rw [he, hp]; exact hop
          · rfl
        have hoth : ∀ j, j < h.next → j ∉ (x :: xs).map HSlot.ref → h'.get j = h.get j := by
          intro j hj hn
          simp only [map_cons, mem_cons, not_or] at hn
          rw [i3.other j (by omega) hn.2, hget, if_neg (Nat.ne_of_lt hj), if_neg hn.1]
        have hnp : ∀ y ∈ x :: xs, (h.get y.ref).isParam = false → h'.get y.ref = h.get y.ref := by
          intro y hy hq
          rcases mem_cons.1 hy with rfl | hy
          · rw [hp] at hq; cases hq
          · rw [i4 y hy (by rw [hsame y hy]; exact hq), hsame y hy]
        have hframe : Store.Frame (x :: xs) h h' :=
          ⟨by have := i3.next; omega, hpar, hoth, fun y hy _ hq => hnp y hy hq⟩
        cases r with
        | error e =>
          cases q with
          | ok ops => simp [Except.map] at i2
          | error e' =>
            simp only [Except.map, Except.error.injEq] at i2
            subst i2
            refine ⟨?_, rfl, hframe, hnp, fun js hj => by simp at hj⟩
            simp only
            rw [hx', i1]
        | ok js =>
          cases q with
          | error e' => simp [Except.map] at i2
          | ok ops =>
            simp only [Except.map, Except.ok.injEq] at i2
            refine ⟨?_, ?_, hframe, hnp, fun ks hk => ?_⟩
            · simp only
              rw [hx', i1]
            · simp only [Except.map, Except.ok.injEq, map_cons]
              rw [hn', i2]
              rfl
            · simp only [Except.ok.injEq] at hk
              subst hk
              refine .cons ?_ ?_
              · rw [if_pos hp]
                have := i3.next
                exact ⟨le_refl _, by show h.next < h'.next; omega⟩
              · refine forall2_imp_left (i5 js rfl) fun y hy j hj => ?_
                rw [hsame y hy] at hj
                split
                · rename_i hq
                  rw [if_pos hq] at hj
                  exact ⟨by omega, hj.2⟩
                · rename_i hq
                  rw [if_neg hq] at hj
                  exact hj
    · rw [if_neg hp]
      have hp : (h.get x.ref).isParam = false := by simpa using hp
      obtain ⟨i1, i2, i3, i4, i5⟩ := ih h hd.2 hlt
      have hev : (h.get x.ref).evaluate lib mu = (h.get x.ref, .ok (h.get x.ref).plain) := by
        cases ho : h.get x.ref with
        | np o => rfl
        | aff a => rw [ho] at hp; cases hp
        | itp t => rw [ho] at hp; cases hp
      rw [hev]
      generalize hR : evalRefs lib mu h (xs.map HSlot.ref) = R at i1 i2 i3 i4 i5
      generalize hQ : evalOps lib mu (xs.map fun y => (⟨h.get y.ref, y.infer⟩ : PSlot K)) = Q at i1 i2
      obtain ⟨h', r⟩ := R
      obtain ⟨ss, q⟩ := Q
      simp only at i1 i2 i3 i4 i5
      have hx' : h'.get x.ref = h.get x.ref := i3.other _ hlx hd.1
      have hnp : ∀ y ∈ x :: xs, (h.get y.ref).isParam = false → h'.get y.ref = h.get y.ref := by
        intro y hy hq
        rcases mem_cons.1 hy with rfl | hy
        · exact hx'
        · exact i4 y hy hq
      have hframe : Store.Frame (x :: xs) h h' := by
        refine ⟨i3.next, i3.isParam, fun j hj hn => ?_, fun y hy _ hq => hnp y hy hq⟩
        simp only [map_cons, mem_cons, not_or] at hn
        exact i3.other j hj hn.2
      cases r with
      | error e =>
        cases q with
        | ok ops => simp [Except.map] at i2
        | error e' =>
          simp only [Except.map, Except.error.injEq] at i2
          subst i2
          refine ⟨?_, rfl, hframe, hnp, fun js hj => by simp at hj⟩
          simp only
          rw [hx', i1]
      | ok js =>
        cases q with
        | error e' => simp [Except.map] at i2
        | ok ops =>
          simp only [Except.map, Except.ok.injEq] at i2
          refine ⟨?_, ?_, hframe, hnp, fun ks hk => ?_⟩
          · simp only
            rw [hx', i1]
          · simp only [Except.map, Except.ok.injEq, map_cons]
            rw [hx', i2]
          · simp only [Except.ok.injEq] at hk
            subst hk
            refine .cons ?_ (i5 js rfl)
            rw [if_neg (by rw [hp]; simp)]

end Opinf
