import Verif.Lemmas.Shared
import Verif.Lemmas.Verify
import Verif.Props.ParamModel

/-!
# C103: a model evaluated at a parameter value and the parametric model

`HModel.evaluate` returns a model whose parametric operators are new objects and whose nonparametric operators
are the objects of the parametric model. The theorems say exactly how later calls on the parametric model act on
the evaluated model.
-/

namespace Opinf

open List

variable {K S : Type}

/-- The operators of the model are different objects. -/
def HModel.Distinct (M : HModel S) : Prop := (M.slots.map HSlot.ref).Nodup

/-- The operators of the model exist. -/
def HModel.Lives (h : Store K) (M : HModel S) : Prop := ∀ x ∈ M.slots, x.ref < h.next

/-- The operators of a model, as objects and as contents. -/
theorem HModel.view_ops (h : Store K) (M : HModel S) : (M.view h).ops = M.slots.map fun x => h.get x.ref := by
  simp [HModel.view, PModel.ops, Function.comp_def]

theorem kept_infers {a b : List (PSlot K)} (h : Forall₂ PSlot.Kept a b) :
    b.map PSlot.infer = a.map PSlot.infer := by
  induction h with
  | nil => rfl
  | cons h1 _ ih => rw [map_cons, map_cons, ih, h1.1]

theorem slots_eq_of (xs : List HSlot) (g : Nat → POp K) (ss : List (PSlot K))
    (ho : (xs.map HSlot.ref).map g = ss.map PSlot.op) (hi : ss.map PSlot.infer = xs.map HSlot.infer) :
    xs.map (fun x => (⟨g x.ref, x.infer⟩ : PSlot K)) = ss := by
  induction xs generalizing ss with
  | nil => cases ss with
    | nil => rfl
    | cons s ss => simp at ho
  | cons x xs ih => cases ss with
    | nil => simp at ho
    | cons s ss =>
      simp only [map_cons, cons.injEq] at ho hi
      rw [map_cons, ih ss ho.2 hi.2, ho.1, ← hi.1]

theorem forall2_zipRefs {R : HSlot → Nat → Prop} {xs : List HSlot} {js : List Nat} (h : Forall₂ R xs js)
    (bs : List Bool) (hl : bs.length = js.length) :
    Forall₂ (fun x (y : HSlot) => R x y.ref) xs (zipWith HSlot.mk js bs) := by
  induction h generalizing bs with
  | nil => exact .nil
  | cons a _ ih =>
    cases bs with
    | nil => simp at hl
    | cons b bs =>
      simp only [length_cons, Nat.add_right_cancel_iff] at hl
      exact .cons a (ih bs hl)

/-- **C103 (calls).** A method that changes the operators in place leaves behind the contents it is supposed to,
for methods that keep the list of operators (`fit` and `refit`: `C103_fit`, `C103_refit`). -/
theorem C103_call (f : PModel K S → PModel K S × Except Err Unit) (h : Store K) (M : HModel S) (hd : M.Distinct)
    (hk : (M.view h).Kept (f (M.view h)).1) :
    (M.call f h).2.1.view (M.call f h).1 = (f (M.view h)).1 ∧ (M.call f h).2.2 = (f (M.view h)).2 := by
  refine ⟨?_, rfl⟩
  have hlen : (f (M.view h)).1.ops.length = (M.slots.map HSlot.ref).length := by
    have h1 := hk.length_eq
    have h2 : (M.view h).slots.length = M.slots.length := by simp [HModel.view]
    rw [PModel.ops, length_map, length_map, ← h1, h2]
  have hw := Store.write_map h (M.slots.map HSlot.ref) (f (M.view h)).1.ops hd hlen
  have hi := kept_infers hk
  have hi : (f (M.view h)).1.slots.map PSlot.infer = M.slots.map HSlot.infer := by
    rw [hi]; simp [HModel.view, Function.comp_def]
  have hslots := slots_eq_of M.slots _ _ hw hi
  show (⟨M.slots.map (fun x => (⟨(h.write (M.slots.map HSlot.ref) (f (M.view h)).1.ops).get x.ref,
      x.infer⟩ : PSlot K)), _, _, _, _, _, _, _⟩ : PModel K S) = _
  rw [hslots]
  rfl

theorem frozen_slots {ops : List (Op K)} {N : Model K S} (h : frozen S ops = .ok N) :
    N.slots = ops.map (fun o => ⟨o, o.entries.isNone⟩) ∧ N.solver = none := by
  unfold frozen at h
  split at h
  · cases h
  · rename_i N' hN
    simp only [Except.ok.injEq] at h
    subst h
    have hs := scanOps_spec false (ops.map OpArg.op)
    rw [mapM_resolve_op ops] at hs
    simp only at hs
    unfold Model.setOperators at hN
    split at hN
    · simp at hN
    · rw [hs] at hN
      simp only at hN
      split at hN
      · simp at hN
      · split at hN
        · simp at hN
        · split at hN
          · simp at hN
          · simp only [Prod.mk.injEq, and_true] at hN
            subst hN
            exact ⟨rfl, rfl⟩

theorem frozenAt_view {refs : List Nat} {N : Model K S} (h : Store K)
    (hf : frozen S (refs.map fun i => (h.get i).plain) = .ok N) : (frozenAt refs N).view S h = N := by
  obtain ⟨h1, h2⟩ := frozen_slots hf
  obtain ⟨slots, hasInputs, r, m, intrusive, solver⟩ := N
  simp only at h1 h2
  subst h1 h2
  simp only [frozenAt, HFrozen.view, Model.mk.injEq, and_true, map_map]
  clear hf
  induction refs with
  | nil => rfl
  | cons i is ih =>
    simp only [map_cons, zipWith_cons_cons, ih, Function.comp_apply]

/-- **C103 (evaluation).** On objects, `evaluate` does what it does on contents: the same changes of the
parametric model, the same error or an evaluated model with the same contents. -/
theorem C103_evaluate [Semiring K] (lib : ItpLib K) (mu : Par K) (h : Store K) (M : HModel S) (hd : M.Distinct)
    (hl : M.Lives h) :
    M.view (M.evaluate lib mu h).1 = ((M.view h).evaluate lib mu).1 ∧
    ((M.evaluate lib mu h).2.map fun F => F.view S (M.evaluate lib mu h).1) = ((M.view h).evaluate lib mu).2 := by
  obtain ⟨i1, i2, -, -, -⟩ := evalRefs_spec lib mu M.slots h hd hl
  unfold HModel.evaluate PModel.evaluate
  have hv : (M.view h).slots = M.slots.map fun x => (⟨h.get x.ref, x.infer⟩ : PSlot K) := rfl
  rw [hv]
  generalize evalRefs lib mu h (M.slots.map HSlot.ref) = R at i1 i2
  generalize evalOps lib mu (M.slots.map fun x => (⟨h.get x.ref, x.infer⟩ : PSlot K)) = Q at i1 i2
  obtain ⟨h', r⟩ := R
  obtain ⟨ss, q⟩ := Q
  simp only at i1 i2
  have hM : M.view h' = { M.view h with slots := ss } := by
    rw [← i1]; rfl
  cases r with
  | error e =>
    cases q with
    | ok ops => simp [Except.map] at i2
    | error e' =>
      simp only [Except.map, Except.error.injEq] at i2
      subst i2
      exact ⟨hM, rfl⟩
  | ok js =>
    cases q with
    | error e' => simp [Except.map] at i2
    | ok ops =>
      simp only [Except.map, Except.ok.injEq] at i2
      subst i2
      refine ⟨hM, ?_⟩
      simp only
      cases hf : frozen S (js.map fun j => (h'.get j).plain) with
      | error e => rfl
      | ok N =>
        simp only [Except.map, Except.ok.injEq]
        exact frozenAt_view h' hf

/-- What is known about the objects of an evaluated model. -/
theorem evaluate_refs [Semiring K] (lib : ItpLib K) (mu : Par K) (h h1 : Store K) (M : HModel S) (F : HFrozen)
    (hd : M.Distinct) (hl : M.Lives h) (he : M.evaluate lib mu h = (h1, .ok F)) :
    Store.Frame M.slots h h1 ∧ (∀ x ∈ M.slots, (h.get x.ref).isParam = false → h1.get x.ref = h.get x.ref) ∧
    Forall₂ (fun (x y : HSlot) => if (h.get x.ref).isParam then h.next ≤ y.ref ∧ y.ref < h1.next
      else y.ref = x.ref) M.slots F.slots := by
  obtain ⟨-, -, i3, i4, i5⟩ := evalRefs_spec lib mu M.slots h hd hl
  unfold HModel.evaluate at he
  generalize evalRefs lib mu h (M.slots.map HSlot.ref) = R at i3 i4 i5 he
  obtain ⟨h', r⟩ := R
  cases r with
  | error e => simp at he
  | ok js =>
    simp only [Prod.mk.injEq] at he
    obtain ⟨rfl, he⟩ := he
    split at he
    · cases he
    · rename_i N hN
      simp only [Except.ok.injEq] at he
      subst he
      refine ⟨i3, i4, ?_⟩
      have hlen : (N.slots.map Slot.infer).length = js.length := by
        rw [(frozen_slots hN).1]; simp
      have h5 := i5 js rfl
      exact forall2_zipRefs h5 _ hlen

section

variable [LinearOrder K] [CommRing K]

theorem call_frame (f : PModel K S → PModel K S × Except Err Unit) (h : Store K) (M : HModel S) (hd : M.Distinct)
    (hk : (M.view h).Kept (f (M.view h)).1) :
    Store.Frame M.slots h (M.call f h).1 ∧ (M.call f h).2.1.slots = M.slots := by
  have hv := congrArg PModel.slots (C103_call f h M hd hk).1
  have hs : (M.call f h).2.1.slots = M.slots := rfl
  have hk : Forall₂ PSlot.Kept (M.view h).slots (f (M.view h)).1.slots := hk
  rw [← hv] at hk
  have hk : Forall₂ PSlot.Kept (M.slots.map fun x => (⟨h.get x.ref, x.infer⟩ : PSlot K))
    (M.slots.map fun x => (⟨(M.call f h).1.get x.ref, x.infer⟩ : PSlot K)) := hk
  rw [forall₂_map_left_iff, forall₂_map_right_iff] at hk
  have hx := forall₂_same.1 hk
  have hother : ∀ j, j ∉ M.slots.map HSlot.ref → (M.call f h).1.get j = h.get j :=
    fun j hj => Store.write_other _ _ _ _ hj
  refine ⟨⟨le_of_eq (Store.write_next ..).symm, fun j _ => ?_, fun j _ hj => hother j hj, fun x hm hi hp => ?_⟩, hs⟩
  · by_cases hj : j ∈ M.slots.map HSlot.ref
    · obtain ⟨x, hm, rfl⟩ := mem_map.1 hj
      exact (hx x hm).2.1
    · rw [hother j hj]
  · exact (hx x hm).2.2 hp hi

theorem run_frame (lib : ItpLib K) (I : SolverI K S) (h : Store K) (M : HModel S) (hd : M.Distinct)
    (hl : M.Lives h) (c : PCall K S) :
    Store.Frame M.slots h (c.run lib I (h, M)).1 ∧ (c.run lib I (h, M)).2.slots = M.slots := by
  cases c with
  | fit ps states lhs inputs => exact call_frame (fun N => N.fit lib I ps states lhs inputs) h M hd (PModel.fit_kept ..)
  | refit => exact call_frame (fun N => N.refit lib I) h M hd (PModel.refit_kept ..)
  | evaluate mu =>
    refine ⟨?_, rfl⟩
    have hf := (evalRefs_spec lib mu M.slots h hd hl).2.2.1
    show Store.Frame M.slots h (M.evaluate lib mu h).1
    unfold HModel.evaluate
    generalize evalRefs lib mu h (M.slots.map HSlot.ref) = R at hf
    obtain ⟨h', r⟩ := R
    cases r <;> exact hf
  | solver s =>
    refine ⟨.refl _ _, ?_⟩
    simp only [PCall.run]
    split <;> rfl

/-- What a history of calls leaves alone. -/
theorem history_frame (lib : ItpLib K) (I : SolverI K S) (calls : List (PCall K S)) (h : Store K) (M : HModel S)
    (hd : M.Distinct) (hl : M.Lives h) :
    Store.Frame M.slots h (calls.foldl (PCall.run lib I) (h, M)).1 ∧
    (calls.foldl (PCall.run lib I) (h, M)).2.slots = M.slots := by
  induction calls generalizing h M with
  | nil => exact ⟨.refl _ _, rfl⟩
  | cons c cs ih =>
    obtain ⟨f1, s1⟩ := run_frame lib I h M hd hl c
    rw [foldl_cons]
    generalize c.run lib I (h, M) = x at f1 s1
    obtain ⟨h1, M1⟩ := x
    have s1 : M1.slots = M.slots := s1
    have hd1 : M1.Distinct := by unfold HModel.Distinct; rw [s1]; exact hd
    have hl1 : M1.Lives h1 := by
      intro x hx
      rw [s1] at hx
      exact lt_of_lt_of_le (hl x hx) f1.next
    obtain ⟨f2, s2⟩ := ih h1 M1 hd1 hl1
    rw [s1] at f2 s2
    exact ⟨f1.trans f2 hl, s2⟩

/-- **C103 (what an evaluated model is later).** After any calls on the parametric model, an evaluated model
consists of the operators evaluated at the time of the evaluation and of the *present* nonparametric operators
of the parametric model. -/
theorem C103_evaluated_later (lib : ItpLib K) (I : SolverI K S) (mu : Par K) (h h1 : Store K) (M : HModel S)
    (F : HFrozen) (hd : M.Distinct) (hl : M.Lives h) (he : M.evaluate lib mu h = (h1, .ok F))
    (calls : List (PCall K S)) (h2 : Store K) (M2 : HModel S)
    (hc : calls.foldl (PCall.run lib I) (h1, M) = (h2, M2)) :
    (F.view S h2).ops = zipWith (fun (o : POp K) e => if o.isParam then e else o.plain) (M2.view h2).ops
      (F.view S h1).ops := by
  obtain ⟨f1, -, hr⟩ := evaluate_refs lib mu h h1 M F hd hl he
  have hl1 : M.Lives h1 := fun x hx => lt_of_lt_of_le (hl x hx) f1.next
  obtain ⟨f2, s2⟩ := history_frame lib I calls h1 M hd hl1
  rw [hc] at f2 s2
  have s2 : M2.slots = M.slots := s2
  have f2 : Store.Frame M.slots h1 h2 := f2
  rw [HModel.view_ops, s2]
  have e1 : ∀ g : Store K, (F.view S g).ops = F.slots.map fun y => (g.get y.ref).plain := by
    intro g; simp [HFrozen.view, Model.ops, Function.comp_def]
  rw [e1, e1]
  have key : Forall₂ (fun (x y : HSlot) => (h2.get y.ref).plain
      = if (h2.get x.ref).isParam then (h1.get y.ref).plain else (h2.get x.ref).plain) M.slots F.slots := by
    refine forall2_imp_left hr fun x hx y hxy => ?_
    rw [f2.isParam _ (hl1 x hx), f1.isParam _ (hl x hx)]
    split
    · rename_i hp
      rw [if_pos hp] at hxy
      rw [f2.other _ hxy.2]
      intro hm
      obtain ⟨z, hz, hze⟩ := mem_map.1 hm
      have := hl z hz
      omega
    · rename_i hp
      rw [if_neg hp] at hxy
      rw [hxy]
  generalize M.slots = xs at key ⊢
  generalize F.slots = ys at key ⊢
  induction key with
  | nil => rfl
  | cons a _ ih => rw [map_cons, map_cons, map_cons, zipWith_cons_cons, ← ih, ← a]

/-- **C103 (independent evaluations).** If no nonparametric operator of the model is to be inferred, no calls on
the parametric model change its evaluations. -/
theorem C103_independent_partial (lib : ItpLib K) (I : SolverI K S) (mu : Par K) (h h1 : Store K) (M : HModel S)
    (F : HFrozen) (hd : M.Distinct) (hl : M.Lives h) (he : M.evaluate lib mu h = (h1, .ok F))
    (hn : ∀ x ∈ M.slots, x.infer = true → (h.get x.ref).isParam = true) (calls : List (PCall K S)) :
    F.view S (calls.foldl (PCall.run lib I) (h1, M)).1 = F.view S h1 := by
  obtain ⟨f1, -, hr⟩ := evaluate_refs lib mu h h1 M F hd hl he
  have hl1 : M.Lives h1 := fun x hx => lt_of_lt_of_le (hl x hx) f1.next
  obtain ⟨f2, -⟩ := history_frame lib I calls h1 M hd hl1
  generalize (calls.foldl (PCall.run lib I) (h1, M)).1 = h2 at f2
  have key : ∀ y ∈ F.slots, h2.get y.ref = h1.get y.ref := by
    intro y hy
    obtain ⟨x, hx, hxy⟩ := forall2_right_mem hr hy
    split at hxy
    · refine f2.other _ hxy.2 fun hm => ?_
      obtain ⟨z, hz, hze⟩ := mem_map.1 hm
      have := hl z hz
      omega
    · rename_i hp
      rw [hxy]
      refine f2.known x hx ?_ ?_
      · cases hi : x.infer with
        | false => rfl
        | true => exact absurd (hn x hx hi) hp
      · rw [f1.isParam _ (hl x hx)]; simpa using hp
  unfold HFrozen.view
  rw [map_congr_left fun y hy => by rw [key y hy]]

omit [LinearOrder K] in
/-- A model with an operator without entries has no right-hand side. -/
theorem rhs_not_ok (N : Model K S) (o : Op K) (ho : o ∈ N.ops) (hn : o.entries = none) (q : List K)
    (u : Option (List K)) (y : List K) : N.rhs q u ≠ .ok y := by
  unfold Model.rhs
  have key : ∀ (ops : List (Op K)) (out : List K), o ∈ ops →
      ops.foldlM (fun out op => do addInto out (← op.apply (.vec q) (u.map .vec))) out ≠ Except.ok y := by
    intro ops
    induction ops with
    | nil => intro out hm; exact absurd hm not_mem_nil
    | cons a as ih =>
      intro out hm h
      rw [foldlM_cons] at h
      rcases mem_cons.1 hm with rfl | hm
      · have ha : o.apply (.vec q) (u.map Arg.vec) = .error .attribute := by
          unfold Op.apply; rw [hn]
        rw [ha] at h
        cases h
      · cases hb : (do addInto out (← a.apply (.vec q) (u.map .vec))) with
        | error e => rw [hb] at h; cases h
        | ok b => rw [hb] at h; exact ih b hm h
  exact key _ _ ho

/-- **C103 (a refused fit).** If the model has a nonparametric operator to be inferred and `fit` of the parametric
model raises before the regression is solved, then no earlier evaluation can be used any more: its right-hand side
raises for every state and input. -/
theorem C103_refused_fit (lib : ItpLib K) (I : SolverI K S) (mu : Par K) (h h1 : Store K) (M : HModel S)
    (F : HFrozen) (hd : M.Distinct) (hl : M.Lives h) (he : M.evaluate lib mu h = (h1, .ok F))
    (hint : M.intrusive = false) (x : HSlot) (hx : x ∈ M.slots) (hi : x.infer = true)
    (hp : (h.get x.ref).isParam = false) (ps : List (Par K)) (states lhs : List (Arg K))
    (inputs : Option (List (Arg K))) (e : Err)
    (hf : ((M.view h1).fitSolver lib I ps states lhs inputs).2 = .error e) (q : List K) (u : Option (List K)) :
    (M.call (fun N => N.fit lib I ps states lhs inputs) h1).2.2 = .error e ∧
    ∀ y, (F.view S (M.call (fun N => N.fit lib I ps states lhs inputs) h1).1).rhs q u ≠ .ok y := by
  obtain ⟨f1, hnp, hr⟩ := evaluate_refs lib mu h h1 M F hd hl he
  have hemp := (M.view h1).fitSolver_emptied lib I ps states lhs inputs
  have hfit : (M.view h1).fit lib I ps states lhs inputs
      = (((M.view h1).fitSolver lib I ps states lhs inputs).1, .error e) := by
    unfold PModel.fit
    rw [if_neg (by show ¬ M.intrusive = true; rw [hint]; simp)]
    generalize (M.view h1).fitSolver lib I ps states lhs inputs = out at hf
    obtain ⟨N, r⟩ := out
    simp only at hf
    subst hf
    rfl
  obtain ⟨c1, c2⟩ := C103_call (fun N => N.fit lib I ps states lhs inputs) h1 M hd (PModel.fit_kept ..)
  refine ⟨by rw [c2, hfit], ?_⟩
  rw [hfit] at c1
  have hs := congrArg PModel.slots c1
  rw [← hs] at hemp
  generalize (M.call (fun N => N.fit lib I ps states lhs inputs) h1).1 = h2 at hemp
  have hemp : Forall₂ PSlot.Emptied (M.slots.map fun x => (⟨h1.get x.ref, x.infer⟩ : PSlot K))
    (M.slots.map fun x => (⟨h2.get x.ref, x.infer⟩ : PSlot K)) := hemp
  rw [forall₂_map_left_iff, forall₂_map_right_iff] at hemp
  have hnone := forall₂_same.1 hemp x hx (by show (h1.get x.ref).isParam = false; rw [hnp x hx hp]; exact hp) hi
  obtain ⟨y, hy, hxy⟩ := forall2_right_mem hr.flip hx
  have hxy : if (h.get x.ref).isParam then h.next ≤ y.ref ∧ y.ref < h1.next else y.ref = x.ref := hxy
  rw [if_neg (by rw [hp]; simp)] at hxy
  have hop : (h2.get y.ref).plain ∈ (F.view S h2).ops := by
    simp only [HFrozen.view, Model.ops, map_map, mem_map, Function.comp_apply]
    exact ⟨y, hy, rfl⟩
  rw [hxy] at hop
  exact rhs_not_ok _ _ hop hnone q u



/-! ### Copies -/

theorem mapM_eq_on {α β : Type} {f g : α → Except Err β} {l : List α} (h : ∀ a ∈ l, f a = g a) :
    l.mapM f = l.mapM g := by
  induction l with
  | nil => rfl
  | cons a l ih =>
    rw [mapM_cons, mapM_cons, h a mem_cons_self, ih fun b hb => h b (mem_cons_of_mem _ hb)]

theorem zipRefs_ref {js : List Nat} {bs : List Bool} {y : HSlot} (h : y ∈ zipWith HSlot.mk js bs) :
    y.ref ∈ js := by
  induction js generalizing bs with
  | nil => simp at h
  | cons j js ih => cases bs with
    | nil => simp at h
    | cons b bs =>
      rw [zipWith_cons_cons] at h
      rcases mem_cons.1 h with rfl | h
      · exact mem_cons_self
      · exact mem_cons_of_mem _ (ih h)

omit [LinearOrder K] in
theorem copyRefs_spec (is : List Nat) (h : Store K) (hl : ∀ i ∈ is, i < h.next) :
    h.next ≤ (copyRefs h is).1.next ∧ (∀ j, j < h.next → (copyRefs h is).1.get j = h.get j) ∧
    ((copyRefs h is).2.map fun js => js.map fun j => ((copyRefs h is).1.get j).plain)
      = is.mapM (fun i => (h.get i).plain.copy) ∧
    ∀ js, (copyRefs h is).2 = .ok js → ∀ j ∈ js, h.next ≤ j ∧ j < (copyRefs h is).1.next := by
  induction is generalizing h with
  | nil =>
    refine ⟨Nat.le_refl _, fun _ _ => by rfl, by rfl, fun js hj j hm => ?_⟩
    simp only [copyRefs, Except.ok.injEq] at hj
    subst hj
    exact absurd hm not_mem_nil
  | cons i is ih =>
    rw [mapM_cons]
    simp only [copyRefs]
    cases hc : (h.get i).plain.copy with
    | error e =>
      simp only
      exact ⟨Nat.le_refl _, fun _ _ => trivial, rfl, fun js hj => by simp at hj⟩
    | ok op =>
      simp only
      obtain ⟨h1, hh1⟩ : ∃ h1, h1 = h.alloc (.np op) := ⟨_, rfl⟩
      rw [← hh1]
      have hget : ∀ j, h1.get j = if j = h.next then .np op else h.get j := by intro j; rw [hh1]; rfl
      have hnext : h1.next = h.next + 1 := by rw [hh1]; rfl
      have hsame : ∀ j ∈ is, h1.get j = h.get j := fun j hj => by
        rw [hget, if_neg (Nat.ne_of_lt (hl j (mem_cons_of_mem _ hj)))]
      obtain ⟨i1, i2, i3, i4⟩ := ih h1 fun j hj => by
        rw [hnext]; exact Nat.lt_succ_of_lt (hl j (mem_cons_of_mem _ hj))
      have hm : is.mapM (fun i => (h1.get i).plain.copy) = is.mapM (fun i => (h.get i).plain.copy) :=
        mapM_eq_on fun j hj => by rw [hsame j hj]
      rw [hm] at i3
      generalize copyRefs h1 is = R at i1 i2 i3 i4
      obtain ⟨h', r⟩ := R
      simp only at i1 i2 i3 i4
      have hkeep : ∀ j, j < h.next → h'.get j = h.get j := fun j hj => by
        rw [i2 j (by omega), hget, if_neg (Nat.ne_of_lt hj)]
      have hnew : h'.get h.next = .np op := by rw [i2 _ (by omega), hget, if_pos rfl]
      cases r with
      | error e =>
        simp only [Except.map] at i3
        refine ⟨by show h.next ≤ h'.next; omega, hkeep, ?_, fun js hj => by simp at hj⟩
        rw [← i3]; rfl
      | ok js =>
        simp only [Except.map] at i3
        refine ⟨by show h.next ≤ h'.next; omega, hkeep, ?_, fun ks hk j hj => ?_⟩
        · rw [← i3]
          simp only [Except.map, map_cons]
          rw [hnew]
          rfl
        · simp only [Except.ok.injEq] at hk
          subst hk
          rcases mem_cons.1 hj with rfl | hj
          · exact ⟨le_refl _, by show h.next < h'.next; omega⟩
          · have := i4 js rfl j hj
            exact ⟨by omega, this.2⟩

/-- **C103 (copies).** A copy of an evaluated model consists of copies of its operators, making it changes
nothing else, and no later calls on the parametric model change the copy. -/
theorem C103_copy_independent (lib : ItpLib K) (I : SolverI K S) (h h1 : Store K) (M : HModel S) (F C : HFrozen)
    (hd : M.Distinct) (hl : M.Lives h) (hF : ∀ y ∈ F.slots, y.ref < h.next)
    (hc : F.copy S h = (h1, .ok C)) :
    (F.view S h).ops.mapM Op.copy = .ok (C.view S h1).ops ∧ F.view S h1 = F.view S h ∧ M.view h1 = M.view h ∧
    ∀ calls : List (PCall K S), C.view S (calls.foldl (PCall.run lib I) (h1, M)).1 = C.view S h1 := by
  have hFr : ∀ i ∈ F.slots.map HSlot.ref, i < h.next := by
    intro i hi
    obtain ⟨y, hy, rfl⟩ := mem_map.1 hi
    exact hF y hy
  obtain ⟨i1, i2, i3, i4⟩ := copyRefs_spec (F.slots.map HSlot.ref) h hFr
  unfold HFrozen.copy at hc
  generalize copyRefs h (F.slots.map HSlot.ref) = R at i1 i2 i3 i4 hc
  obtain ⟨h', r⟩ := R
  cases r with
  | error e => simp at hc
  | ok js =>
    simp only [Prod.mk.injEq] at hc i1 i2 i3 i4
    obtain ⟨rfl, hc⟩ := hc
    split at hc
    · cases hc
    · rename_i N hN
      simp only [Except.ok.injEq] at hc
      subst hc
      have hslots := (frozen_slots hN).1
      refine ⟨?_, ?_, ?_, fun calls => ?_⟩
      · rw [frozenAt_view h' hN]
        have e1 : (F.view S h).ops = (F.slots.map HSlot.ref).map fun i => (h.get i).plain := by
          simp [HFrozen.view, Model.ops, Function.comp_def]
        rw [e1, mapM_map]
        have i3' : _ = mapM (Op.copy ∘ fun i => (h.get i).plain) (F.slots.map HSlot.ref) := i3
        rw [← i3']
        simp only [Except.map, Except.ok.injEq, Model.ops, hslots, map_map, Function.comp_def]
      · unfold HFrozen.view
        rw [map_congr_left fun y hy => by rw [i2 _ (hF y hy)]]
      · unfold HModel.view
        rw [map_congr_left fun y hy => by rw [i2 _ (hl y hy)]]
      · have hl1 : M.Lives h' := fun x hx => lt_of_lt_of_le (hl x hx) i1
        obtain ⟨f2, -⟩ := history_frame lib I calls h' M hd hl1
        generalize (calls.foldl (PCall.run lib I) (h', M)).1 = h2 at f2
        unfold HFrozen.view
        rw [map_congr_left fun y hy => ?_]
        have hm : y.ref ∈ js := zipRefs_ref hy
        have hj := i4 js rfl _ hm
        rw [f2.other _ hj.2]
        intro hr
        obtain ⟨z, hz, hze⟩ := mem_map.1 hr
        have := hl z hz
        omega

/-- **C103 (fit).** On objects, `fit` does what it does on contents. -/
theorem C103_fit (lib : ItpLib K) (I : SolverI K S) (h : Store K) (M : HModel S) (hd : M.Distinct)
    (ps : List (Par K)) (states lhs : List (Arg K)) (inputs : Option (List (Arg K))) :
    (M.call (fun N => N.fit lib I ps states lhs inputs) h).2.1.view
        (M.call (fun N => N.fit lib I ps states lhs inputs) h).1
      = ((M.view h).fit lib I ps states lhs inputs).1 ∧
    (M.call (fun N => N.fit lib I ps states lhs inputs) h).2.2
      = ((M.view h).fit lib I ps states lhs inputs).2 :=
  C103_call (fun N => N.fit lib I ps states lhs inputs) h M hd (PModel.fit_kept ..)

/-- **C103 (refit).** On objects, `refit` does what it does on contents. -/
theorem C103_refit (lib : ItpLib K) (I : SolverI K S) (h : Store K) (M : HModel S) (hd : M.Distinct) :
    (M.call (fun N => N.refit lib I) h).2.1.view (M.call (fun N => N.refit lib I) h).1
      = ((M.view h).refit lib I).1 ∧
    (M.call (fun N => N.refit lib I) h).2.2 = ((M.view h).refit lib I).2 :=
  C103_call (fun N => N.refit lib I) h M hd (PModel.refit_kept ..)

omit [LinearOrder K] [CommRing K] in
/-- **C103 (an evaluated model cannot be trained).** Whatever the training methods of an evaluated model do, the
model and all operator objects stay as they are; `fit` always raises, and `refit` raises unless there is nothing
to learn. -/
theorem C103_not_trained (h : Store K) (F : HFrozen) (s : SolverArg S) :
    F.fit h = (h, F, .error .notImplemented) ∧ F.setSolver h s = (h, F, .ok ()) ∧
    (F.refit h).1 = h ∧ (F.refit h).2.1 = F ∧ ((F.refit h).2.2 = .ok () ↔ F.intrusive = true) := by
  refine ⟨rfl, rfl, ?_, ?_, ?_⟩ <;> unfold HFrozen.refit <;> split <;> simp_all

end

/-! ### The evaluated model is not independent -/

/-- A solver for one unknown per mode: the answer is the first left-hand side. -/
def firstLhs : SolverI ℚ (Option (List ℚ)) where
  fit := fun _ _ Z => match Z with
    | [] => (none, .error .value)
    | z :: _ => (some z, .ok ())
  solve := fun s => match s with
    | none => .error .attribute
    | some z => .ok ⟨z.length, 1, z.map fun a => [a]⟩

/-- A constant operator to be inferred and a known linear operator `A(mu) = 2 mu`. -/
def shEx : Store ℚ :=
  ⟨fun i => if i = 0 then .np ⟨.const, none⟩ else
    .aff ⟨.lin, 1, fun mu => .ok (.vec mu.toList), none, some [⟨1, 1, [[2]]⟩]⟩, 2⟩

def shModel : HModel (Option (List ℚ)) := ⟨[⟨0, true⟩, ⟨1, false⟩], false, some 1, some 0, false, some none, none, none⟩

/-- `fit` with the state 0 and the left-hand side `a`. -/
def shFit (a : ℚ) : PCall ℚ (Option (List ℚ)) := .fit [.scalar 1] [.mat 1 [[0]]] [.mat 1 [[a]]] none

/-- `fit` without a data set for the parameter. -/
def shBad : PCall ℚ (Option (List ℚ)) := .fit [.scalar 1] [] [] none

/-- Fit with left-hand side 7, evaluate at the parameter 3, do `calls`, then the right-hand side of the evaluated
model at the state 5 (before and after). -/
def shRun (calls : List (PCall ℚ (Option (List ℚ)))) : Except Err (List ℚ) × Except Err (List ℚ) :=
  let x := (shFit 7).run toyLib firstLhs (shEx, shModel)
  match x.2.evaluate toyLib (.scalar 3) x.1 with
  | (_, .error e) => (.error e, .error e)
  | (h1, .ok F) => ((F.view (Option (List ℚ)) h1).rhs [5] none,
      (F.view (Option (List ℚ)) (calls.foldl (PCall.run toyLib firstLhs) (h1, x.2)).1).rhs [5] none)

/-- **C103 (concrete witness).** A second `fit` of the parametric model changes a model evaluated before it, and a
refused `fit` makes it unusable. -/
theorem C103_witness :
    shRun [] = (.ok [37], .ok [37]) ∧ shRun [shFit 11] = (.ok [37], .ok [41]) ∧
    shRun [shBad] = (.ok [37], .error .attribute) := by decide +kernel

/-- The objects and the model after a first `fit`, and an evaluation at the parameter 3. -/
def shFitted : Store ℚ × HModel (Option (List ℚ)) := (shFit 7).run toyLib firstLhs (shEx, shModel)

def shEvaluated : Store ℚ × Except Err HFrozen := shFitted.2.evaluate toyLib (.scalar 3) shFitted.1

-- the hypotheses of the theorems on evaluated models hold, with a nonparametric operator to be inferred
example : shFitted.2.Distinct ∧ shFitted.2.Lives shFitted.1 ∧
    shEvaluated.2 = .ok ⟨[⟨0, false⟩, ⟨2, false⟩], false, some 1, some 0, true⟩ ∧ shFitted.2.intrusive = false ∧
    (⟨0, true⟩ : HSlot) ∈ shFitted.2.slots ∧ (shFitted.1.get 0).isParam = false ∧
    ((shFitted.2.view shEvaluated.1).fitSolver toyLib firstLhs [.scalar 1] [] [] none).2 = .error .dimensionality := by
  unfold HModel.Distinct HModel.Lives
  decide +kernel

/-- The same model with a known constant operator and a linear operator to be inferred. -/
def shEx2 : Store ℚ :=
  ⟨fun i => if i = 0 then .np ⟨.const, some ⟨1, 1, [[7]]⟩⟩ else
    .aff ⟨.lin, 1, fun mu => .ok (.vec mu.toList), none, some [⟨1, 1, [[2]]⟩]⟩, 2⟩

-- the hypothesis of `C103_independent_partial` holds, and the evaluated model exists
example : (∀ x ∈ ([⟨0, false⟩, ⟨1, true⟩] : List HSlot), x.infer = true → (shEx2.get x.ref).isParam = true) ∧
    (HModel.evaluate toyLib (.scalar 3) shEx2
      (⟨[⟨0, false⟩, ⟨1, true⟩], false, some 1, some 0, false, some none, none, none⟩
        : HModel (Option (List ℚ)))).2.isOk = true := by decide +kernel

-- a copy of the evaluated model exists and consists of new objects
example : ((match shEvaluated with
    | (h1, .ok F) => (F.copy (Option (List ℚ)) h1).2
    | (_, .error e) => .error e) : Except Err HFrozen)
      = .ok ⟨[⟨3, false⟩, ⟨4, false⟩], false, some 1, some 0, true⟩ := by decide +kernel

end Opinf
