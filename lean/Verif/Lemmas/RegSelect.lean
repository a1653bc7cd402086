import Verif.Model.RegSelect
import Verif.Lemmas.MonoHist
import Verif.Props.Gridsearch

/-!
# Lemmas on the selection of the regularization
-/

namespace Opinf

open List

variable {K S C : Type}

/-- Setting the regularization overwrites whatever was set before: `cfg` is what the solver has learned from the
data; it is not changed, and it determines the outcome and, after success, the state. -/
structure Overwrites (setReg : S → Point K → S × Except Err Unit) (cfg : S → C) : Prop where
  keep : ∀ s p, cfg (setReg s p).1 = cfg s
  same : ∀ s t p, cfg s = cfg t → (setReg s p).2 = (setReg t p).2 ∧
    ((setReg s p).2 = .ok () → (setReg s p).1 = (setReg t p).1)

/-- Two models that differ at most in the learned entries and in the regularization. -/
structure Model.Alike (cfg : S → C) (M N : Model K S) : Prop where
  slots : clearSlots M.slots = clearSlots N.slots
  same : M.intrusive = true → M.slots = N.slots
  inputs : M.hasInputs = N.hasInputs
  r : M.r = N.r
  m : M.m = N.m
  intrusive : M.intrusive = N.intrusive
  solver : M.solver.map cfg = N.solver.map cfg

theorem Model.Alike.refl (cfg : S → C) (M : Model K S) : M.Alike cfg M := ⟨rfl, fun _ => rfl, rfl, rfl, rfl, rfl, rfl⟩

theorem Model.Alike.symm {cfg : S → C} {M N : Model K S} (h : M.Alike cfg N) : N.Alike cfg M :=
  ⟨h.1.symm, fun hi => (h.2 (h.6.trans hi)).symm, h.3.symm, h.4.symm, h.5.symm, h.6.symm, h.7.symm⟩

theorem Model.Alike.trans {cfg : S → C} {M N P : Model K S} (h : M.Alike cfg N) (h' : N.Alike cfg P) :
    M.Alike cfg P :=
  ⟨h.1.trans h'.1, fun hi => (h.2 hi).trans (h'.2 (h.6 ▸ hi)), h.3.trans h'.3, h.4.trans h'.4, h.5.trans h'.5, h.6.trans h'.6,
    h.7.trans h'.7⟩

theorem extractLoop_alike [AddMonoid K] (r m : Nat) (O : Mat K) : ∀ (ss tt : List (Slot K)) (i : Nat),
    clearSlots ss = clearSlots tt →
    (extractLoop r m O i ss).2 = (extractLoop r m O i tt).2 ∧
    ((extractLoop r m O i ss).2 = .ok () → (extractLoop r m O i ss).1 = (extractLoop r m O i tt).1) := by
  intro ss
  induction ss with
  | nil =>
    intro tt i h
    cases tt with
    | nil => simp
    | cons t tt => simp [clearSlots] at h
  | cons s ss ih =>
    intro tt i h
    cases tt with
    | nil => simp [clearSlots] at h
    | cons t tt =>
      simp only [clearSlots, map_cons, cons.injEq] at h
      obtain ⟨h1, h2⟩ := h
      have hi : s.infer = t.infer := by
        have := congrArg Slot.infer h1
        split at this <;> split at this <;> exact this
      cases hs : s.infer with
      | false =>
        have ht : t.infer = false := hi ▸ hs
        have hst : s = t := by simpa [hs, ht] using h1
        subst hst
        obtain ⟨e1, e2⟩ := ih tt i h2
        simp only [extractLoop, hs, Bool.false_eq_true, if_false]
        exact ⟨e1, fun h => by rw [e2 h]⟩
      | true =>
        have ht : t.infer = true := hi ▸ hs
        have hk : s.op.kind = t.op.kind := by
          simp only [hs, ht, if_true] at h1
          have := congrArg (fun x => x.op.kind) h1
          simpa [Op.clear] using this
        simp only [extractLoop, hs, ht, if_true, ← hk]
        cases s.op.kind.setEntries (O.colSlice i (i + s.op.kind.dim r m)) with
        | error e => simp
        | ok E =>
          obtain ⟨e1, e2⟩ := ih tt (i + s.op.kind.dim r m) h2
          simp only
          exact ⟨e1, fun h => by rw [e2 h]⟩

theorem extractLoop_clear [AddMonoid K] (r m : Nat) (O : Mat K) : ∀ (ss : List (Slot K)) (i : Nat),
    clearSlots (extractLoop r m O i ss).1 = clearSlots ss := by
  intro ss
  induction ss with
  | nil => intro i; rfl
  | cons s ss ih =>
    intro i
    simp only [extractLoop]
    cases hs : s.infer with
    | false =>
      simp only [Bool.false_eq_true, if_false]
      simp only [clearSlots, map_cons] at ih ⊢
      rw [ih]
    | true =>
      simp only [if_true]
      split
      · rfl
      · simp only [clearSlots, map_cons] at ih ⊢
        rw [ih]
        simp [hs, Op.clear]

theorem refit_alike [AddMonoid K] (I : SolverI K S) {M N : Model K S} {s : S} {cfg : S → C} (h : M.Alike cfg N)
    (hM : M.solver = some s) (hN : N.solver = some s) :
    (M.refit I).2 = (N.refit I).2 ∧ ((M.refit I).2 = .ok () → (M.refit I).1 = (N.refit I).1) ∧
    (M.refit I).1.Alike cfg M := by
  have hMN : M = { N with slots := M.slots } := by
    obtain ⟨a, b, c, d, e, f⟩ := M
    obtain ⟨a', b', c', d', e', f'⟩ := N
    have := h.inputs; have := h.r; have := h.m; have := h.intrusive
    simp_all
  unfold Model.refit
  rw [← h.intrusive, hM, hN]
  cases hint : M.intrusive with
  | true =>
    have := h.same hint
    rw [this] at hMN
    simp only [if_true, true_and]
    exact ⟨fun _ => hMN, Model.Alike.refl _ _⟩
  | false =>
    simp only [Bool.false_eq_true, if_false]
    cases I.solve s with
    | error e => exact ⟨rfl, by simp, Model.Alike.refl _ _⟩
    | ok O =>
      simp only [Model.extract, ← h.r, ← h.m]
      obtain ⟨e1, e2⟩ := extractLoop_alike (M.r.getD 0) (M.m.getD 0) O M.slots N.slots 0 h.slots
      refine ⟨e1, fun hok => ?_, ⟨extractLoop_clear _ _ _ _ _, by simp [hint], rfl, rfl, rfl, rfl, rfl⟩⟩
      rw [e2 hok]
      rw [hMN]

theorem updateModel_alike [AddMonoid K] (I : SolverI K S) {setReg : S → Point K → S × Except Err Unit} {cfg : S → C}
    (hO : Overwrites setReg cfg) {M N : Model K S} (h : M.Alike cfg N) (p : Point K) :
    (updateModel I setReg M p).2 = (updateModel I setReg N p).2 ∧
    ((updateModel I setReg M p).2 = .ok () → (updateModel I setReg M p).1 = (updateModel I setReg N p).1) ∧
    (updateModel I setReg M p).1.Alike cfg M := by
  have hsol := h.solver
  unfold updateModel
  cases hM : M.solver with
  | none =>
    cases hN : N.solver with
    | some t => simp [hM, hN] at hsol
    | none => exact ⟨rfl, by simp, Model.Alike.refl _ _⟩
  | some s =>
    cases hN : N.solver with
    | none => simp [hM, hN] at hsol
    | some t =>
      have hst : cfg s = cfg t := by simpa [hM, hN] using hsol
      obtain ⟨e1, e2⟩ := hO.same s t p hst
      have k1 := hO.keep s p
      rcases hs : setReg s p with ⟨s', x⟩
      rcases ht : setReg t p with ⟨t', y⟩
      rw [hs, ht] at e1 e2
      rw [hs] at k1
      simp only at e1 e2 k1
      subst e1
      simp only [hs, ht]
      cases x with
      | error e =>
        exact ⟨rfl, by simp, ⟨rfl, fun _ => rfl, rfl, rfl, rfl, rfl, by simp [hM, k1]⟩⟩
      | ok _ =>
        have := e2 rfl
        subst this
        have ha : ({ M with solver := some s' } : Model K S).Alike cfg { N with solver := some s' } :=
          ⟨h.slots, h.same, h.inputs, h.r, h.m, h.intrusive, rfl⟩
        obtain ⟨r1, r2, r3⟩ := refit_alike I ha rfl rfl
        refine ⟨r1, r2, r3.trans ⟨rfl, fun _ => rfl, rfl, rfl, rfl, rfl, by simp [hM, k1]⟩⟩

theorem trainingError_tame [Field K] (I : SolverI K S) {setReg : S → Point K → S × Except Err Unit} {cfg : S → C}
    (hO : Overwrites setReg cfg) (tests : List (RegCase K (Model K S))) (trains : List (TrainCase K (Model K S))) (M : Model K S) :
    Tame (fun N => N.Alike cfg M) (trainingError I setReg tests trains)
      (fun p => (trainingError I setReg tests trains p M).2) := by
  intro p N hN
  obtain ⟨h1, h2, h3⟩ := updateModel_alike I hO hN p
  simp only [trainingError]
  rcases hu : updateModel I setReg N p with ⟨N', x⟩
  rcases hv : updateModel I setReg M p with ⟨M', y⟩
  rw [hu, hv] at h1 h2
  rw [hu] at h3
  simp only at h1 h2 h3
  subst h1
  cases x with
  | error e => exact ⟨h3.trans hN, rfl⟩
  | ok _ =>
    rw [h2 rfl] at h3 ⊢
    exact ⟨h3.trans hN, rfl⟩

/-- The result of a grid search on a tame function does not depend on the initial state. -/
theorem optim_run_same {σ : Type} {F : Point K → σ → σ × Except Err (Val K)} {Inv : σ → Prop}
    {f : Point K → Except Err (Val K)} (hF : Tame Inv F f) : ∀ (o : Optim K) (s t : σ), Inv s → Inv t →
    (o.run F s).2 = (o.run F t).2 ∧ Inv (o.run F s).1 := by
  intro o
  induction o with
  | done r => intro s t hs ht; exact ⟨rfl, hs⟩
  | fail e => intro s t hs ht; exact ⟨rfl, hs⟩
  | ask x next ih =>
    intro s t hs ht
    obtain ⟨a1, a2⟩ := hF x s hs
    obtain ⟨b1, b2⟩ := hF x t ht
    simp only [Optim.run]
    rcases h1 : F x s with ⟨s', u⟩
    rcases h2 : F x t with ⟨t', v⟩
    rw [h1] at a1 a2
    rw [h2] at b1 b2
    simp only at a1 a2 b1 b2
    subst a2
    subst b2
    cases f x with
    | error e => exact ⟨rfl, a1⟩
    | ok v => exact ih v s' t' a1 b1

theorem gridLoop_same [LinearOrder K] {σ : Type} {F : Point K → σ → σ × Except Err (Val K)} {Inv : σ → Prop}
    {f : Point K → Except Err (Val K)} (hF : Tame Inv F f) : ∀ (cs : List (Point K)) (i : Nat)
    (b : Val K × Option Nat) (s t : σ), Inv s → Inv t →
    (gridLoop F i cs b s).2 = (gridLoop F i cs b t).2 ∧ Inv (gridLoop F i cs b s).1 := by
  intro cs
  induction cs with
  | nil => intro i b s t hs ht; exact ⟨rfl, hs⟩
  | cons c cs ih =>
    intro i b s t hs ht
    obtain ⟨a1, a2⟩ := hF c s hs
    obtain ⟨b1, b2⟩ := hF c t ht
    simp only [gridLoop]
    rcases h1 : F c s with ⟨s', u⟩
    rcases h2 : F c t with ⟨t', v⟩
    rw [h1] at a1 a2
    rw [h2] at b1 b2
    simp only at a1 a2 b1 b2
    subst a2
    subst b2
    cases f c with
    | error e => exact ⟨rfl, a1⟩
    | ok v => exact ih _ _ s' t' a1 b1

theorem tame_logFunc [LinearOrder K] {σ : Type} {F : Point K → σ → σ × Except Err (Val K)} {Inv : σ → Prop}
    {f : Point K → Except Err (Val K)} (hF : Tame Inv F f) (pow10 : Point K → Point K) (big : K) :
    Tame Inv (logFunc pow10 big F) (fun x => (f (pow10 x)).map (Val.clip big)) := by
  intro x s hs
  obtain ⟨a1, a2⟩ := hF (pow10 x) s hs
  simp only [logFunc]
  rcases h1 : F (pow10 x) s with ⟨s', u⟩
  rw [h1] at a1 a2
  simp only at a1 a2
  subst a2
  cases f (pow10 x) with
  | error e => exact ⟨a1, rfl⟩
  | ok v => exact ⟨a1, rfl⟩

theorem gridsearch_same [Field K] [LinearOrder K] {σ : Type} {F : Point K → σ → σ × Except Err (Val K)}
    {Inv : σ → Prop} {f : Point K → Except Err (Val K)} (hF : Tame Inv F f) (pow10 : Point K → Point K) (big : K)
    (optimiser : Start K → Optim K) (c : Cands K) (only : Bool) (s t : σ) (hs : Inv s) (ht : Inv t) :
    (gridsearch pow10 big optimiser F c only s).2 = (gridsearch pow10 big optimiser F c only t).2 ∧
    Inv (gridsearch pow10 big optimiser F c only s).1 := by
  simp only [gridsearch]
  cases c.process with
  | error e => exact ⟨rfl, hs⟩
  | ok g =>
    obtain ⟨a1, a2⟩ := gridLoop_same hF g.points 0 (.inf, none) s t hs ht
    obtain ⟨-, b2⟩ := gridLoop_same hF g.points 0 (.inf, none) t s ht hs
    simp only
    rcases h1 : gridLoop F 0 g.points (.inf, none) s with ⟨s', u⟩
    rcases h2 : gridLoop F 0 g.points (.inf, none) t with ⟨t', v⟩
    rw [h1, h2] at a1
    rw [h1] at a2
    rw [h2] at b2
    simp only at a1 a2 b2
    subst a1
    cases u with
    | error e => exact ⟨rfl, a2⟩
    | ok b =>
      obtain ⟨v, i⟩ := b
      cases i with
      | none => exact ⟨rfl, a2⟩
      | some i =>
        simp only
        cases only with
        | true => exact ⟨rfl, a2⟩
        | false =>
          simp only [Bool.false_eq_true, if_false]
          obtain ⟨c1, c2⟩ := optim_run_same (tame_logFunc hF pow10 big) (optimiser (g.start i)) s' t' a2 b2
          rcases h3 : (optimiser (g.start i)).run (logFunc pow10 big F) s' with ⟨s'', u⟩
          rcases h4 : (optimiser (g.start i)).run (logFunc pow10 big F) t' with ⟨t'', v⟩
          rw [h3, h4] at c1
          rw [h3] at c2
          simp only at c1 c2
          subst c1
          cases u with
          | error e => exact ⟨rfl, c2⟩
          | ok r => exact ⟨rfl, c2⟩

/-! ### The built-in solvers -/

theorem l2SetReg_overwrites [Zero K] [LT K] [DecidableLT K] (factory : Point K → Except Err (Option K)) :
    Overwrites (l2SetReg factory) (fun s : L2 K K => (s.data, s.pre)) := by
  refine ⟨fun s p => ?_, fun s t p h => ?_⟩
  · simp only [l2SetReg, L2.setReg]
    split
    · rfl
    · split
      · rfl
      · split <;> rfl
  · obtain ⟨a, b, c⟩ := s
    obtain ⟨a', b', c'⟩ := t
    simp only [Prod.mk.injEq] at h
    obtain ⟨rfl, rfl⟩ := h
    simp only [l2SetReg, L2.setReg]
    split
    · simp
    · split
      · simp
      · split <;> simp

theorem l2DecSetReg_overwrites [Zero K] [LT K] [DecidableLT K] (factory : Point K → Except Err (Option (NdArg K))) :
    Overwrites (l2DecSetReg factory) (fun s : L2 (List K) K => (s.data, s.pre)) := by
  refine ⟨fun s p => ?_, fun s t p h => ?_⟩
  · simp only [l2DecSetReg, L2.setRegs]
    split
    · rfl
    · split
      · rfl
      · split
        · rfl
        · split
          · rfl
          · split <;> rfl
      · rfl
  · obtain ⟨a, b, c⟩ := s
    obtain ⟨a', b', c'⟩ := t
    simp only [Prod.mk.injEq] at h
    obtain ⟨rfl, rfl⟩ := h
    simp only [l2DecSetReg, L2.setRegs]
    split
    · simp
    · split
      · simp
      · split
        · simp
        · split
          · simp
          · split <;> simp
      · simp

theorem tikSetReg_overwrites [Zero K] [LT K] [DecidableLT K] (factory : Point K → Except Err (Option (RegArg K))) :
    Overwrites (tikSetReg factory) (fun s : Tik (Mat K) K => (s.method, s.data, s.pre)) := by
  refine ⟨fun s p => ?_, fun s t p h => ?_⟩
  · simp only [tikSetReg, Tik.setReg]
    split
    · rfl
    · split
      · rfl
      · split
        · rfl
        · split <;> rfl
  · obtain ⟨a, b, c, d⟩ := s
    obtain ⟨a', b', c', d'⟩ := t
    simp only [Prod.mk.injEq] at h
    obtain ⟨rfl, rfl, rfl⟩ := h
    simp only [tikSetReg, Tik.setReg]
    split
    · simp
    · split
      · simp
      · split
        · simp
        · split <;> simp

theorem tikDecSetReg_overwrites [Zero K] [LT K] [DecidableLT K]
    (factory : Point K → Except Err (Option (List (RegArg K)))) :
    Overwrites (tikDecSetReg factory) (fun s : Tik (List (Mat K)) K => (s.method, s.data, s.pre)) := by
  refine ⟨fun s p => ?_, fun s t p h => ?_⟩
  · simp only [tikDecSetReg, Tik.setRegs]
    split
    · rfl
    · split
      · rfl
      · split
        · rfl
        · split <;> rfl
  · obtain ⟨a, b, c, d⟩ := s
    obtain ⟨a', b', c', d'⟩ := t
    simp only [Prod.mk.injEq] at h
    obtain ⟨rfl, rfl, rfl⟩ := h
    simp only [tikDecSetReg, Tik.setRegs]
    split
    · simp
    · split
      · simp
      · split
        · simp
        · split <;> simp

end Opinf
