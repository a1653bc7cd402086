import Verif.Model.ParamLife
import Verif.Props.ParamEvaluate

/-!
# C58: using a parametric model does not change what it computes

Specification: after any calls at parameters of one dimension, every operator is the original one, except that an affine operator
that did not know its parameter dimension may have learned it.
-/

namespace Opinf

open List

variable {K S : Type}

/-- `o'` is `o`, or `o` with a parameter dimension it did not know. -/
def LearnedFrom (d : Nat) (o o' : POp K) : Prop :=
  o' = o ∨ ∃ a : Affine K, o = .aff a ∧ a.p = none ∧ o' = .aff { a with p := some d }

/-- The same for slots: the mark "to be inferred" is the same. -/
def SlotLearned (d : Nat) (s s' : PSlot K) : Prop := s'.infer = s.infer ∧ LearnedFrom d s.op s'.op

theorem learned_evaluate [Semiring K] (lib : ItpLib K) {d : Nat} {o o' : POp K} (h : LearnedFrom d o o') (nu : Par K)
    (hd : nu.dim = d) :
    (o'.evaluate lib nu).2 = (o.evaluate lib nu).2 ∧ LearnedFrom d o (o'.evaluate lib nu).1 := by
  subst hd
  rcases h with rfl | ⟨a, rfl, hp, rfl⟩
  · refine ⟨rfl, ?_⟩
    cases o' with
    | np o => exact .inl rfl
    | itp t => exact .inl rfl
    | aff a =>
      simp only [POp.evaluate]
      unfold Affine.evaluate
      cases hE : a.entries with
      | none => exact .inl rfl
      | some As =>
        have key : LearnedFrom nu.dim (.aff a) (.aff (a.learnDim nu)) := by
          unfold Affine.learnDim
          cases hp : a.p with
          | none => exact .inr ⟨a, rfl, hp, rfl⟩
          | some p => exact .inl rfl
        simp only
        split
        · exact key
        · exact key
  · obtain ⟨kind, n, co, p, en⟩ := a
    simp only at hp
    subst hp
    cases en with
    | none => exact ⟨rfl, .inr ⟨_, rfl, rfl, rfl⟩⟩
    | some As =>
      refine ⟨rfl, .inr ⟨_, rfl, rfl, ?_⟩⟩
      simp [POp.evaluate, Affine.evaluate, Affine.learnDim]

theorem learned_evalOps [Semiring K] (lib : ItpLib K) {d : Nat} (nu : Par K) (hd : nu.dim = d) {ss ss' : List (PSlot K)}
    (h : Forall₂ (SlotLearned d) ss ss') :
    (evalOps lib nu ss').2 = (evalOps lib nu ss).2 ∧ Forall₂ (SlotLearned d) ss (evalOps lib nu ss').1 := by
  induction h with
  | nil => exact ⟨rfl, .nil⟩
  | @cons s s' ss ss' h hs ih =>
    obtain ⟨e1, e2⟩ := learned_evaluate lib h.2 nu hd
    obtain ⟨i1, i2⟩ := ih
    unfold evalOps
    rcases he : s.op.evaluate lib nu with ⟨o, x⟩
    rcases he' : s'.op.evaluate lib nu with ⟨o', x'⟩
    rw [he, he'] at e1
    rw [he'] at e2
    simp only at e1 e2
    subst e1
    cases x' with
    | error e => exact ⟨rfl, .cons ⟨h.1, e2⟩ hs⟩
    | ok op =>
      rcases hq : evalOps lib nu ss with ⟨t, y⟩
      rcases hq' : evalOps lib nu ss' with ⟨t', y'⟩
      rw [hq, hq'] at i1
      rw [hq'] at i2
      simp only at i1 i2
      subst i1
      cases y' with
      | error e => exact ⟨rfl, .cons ⟨h.1, e2⟩ i2⟩
      | ok ops => exact ⟨rfl, .cons ⟨h.1, e2⟩ i2⟩

theorem learned_refl (d : Nat) (ss : List (PSlot K)) : Forall₂ (SlotLearned d) ss ss := by
  induction ss with
  | nil => exact .nil
  | cons s ss ih => exact .cons ⟨rfl, .inl rfl⟩ ih

theorem use_evaluates [Field K] (lib : ItpLib K) (M : PModel K S) (c : PUse K) : c.run lib M = (M.evaluate lib c.param).1 := by
  cases c <;> rfl

theorem evaluate_parts [Semiring K] (lib : ItpLib K) (M : PModel K S) (mu : Par K) :
    (M.evaluate lib mu).1 = { M with slots := (evalOps lib mu M.slots).1 } ∧
      (M.evaluate lib mu).2 = ((evalOps lib mu M.slots).2.bind fun ops => frozen S ops) := by
  unfold PModel.evaluate
  rcases evalOps lib mu M.slots with ⟨ss, _ | ops⟩ <;> exact ⟨rfl, rfl⟩

/-! ### Property theorems -/

/-- **C58** (any calls). After any calls at parameters of dimension `d`, successful or not, a parametric model is the same up to
parameter dimensions learned by affine operators. -/
theorem C58_any_calls [Field K] (lib : ItpLib K) (d : Nat) (cs : List (PUse K)) (hcs : ∀ c ∈ cs, c.param.dim = d)
    (M : PModel K S) :
    ∃ ss, runUses lib M cs = { M with slots := ss } ∧ Forall₂ (SlotLearned d) M.slots ss := by
  suffices h : ∀ (cs : List (PUse K)) (ss : List (PSlot K)), (∀ c ∈ cs, c.param.dim = d) →
      Forall₂ (SlotLearned d) M.slots ss →
      ∃ ss', runUses lib { M with slots := ss } cs = { M with slots := ss' } ∧ Forall₂ (SlotLearned d) M.slots ss' from
    h cs M.slots hcs (learned_refl d _)
  intro cs
  induction cs with
  | nil => exact fun ss _ h => ⟨ss, rfl, h⟩
  | cons c cs ih =>
    intro ss hcs h
    rw [runUses, use_evaluates, (evaluate_parts lib _ _).1]
    exact ih _ (fun c' hc => hcs c' (mem_cons_of_mem _ hc)) (learned_evalOps lib _ (hcs c mem_cons_self) h).2

/-- **C58** (results do not depend on earlier calls). After any calls at parameters of the dimension of `mu`, the model
evaluates at `mu` to what it would have evaluated to at first; so do right-hand side, Jacobian and predictions. -/
theorem C58_calls_independent [Field K] (lib : ItpLib K) (cs : List (PUse K)) (mu : Par K)
    (hcs : ∀ c ∈ cs, c.param.dim = mu.dim) (M : PModel K S) :
    ((runUses lib M cs).evaluate lib mu).2 = (M.evaluate lib mu).2 ∧
    (∀ q u, ((runUses lib M cs).rhs lib mu q u).2 = (M.rhs lib mu q u).2) ∧
    (∀ q u, ((runUses lib M cs).jacobian lib mu q u).2 = (M.jacobian lib mu q u).2) ∧
    (∀ q0 n inputs, ((runUses lib M cs).predict lib mu q0 n inputs).2 = (M.predict lib mu q0 n inputs).2) := by
  obtain ⟨ss, h1, h2⟩ := C58_any_calls lib mu.dim cs hcs M
  have key : ((runUses lib M cs).evaluate lib mu).2 = (M.evaluate lib mu).2 := by
    rw [(evaluate_parts lib M mu).2, h1, (evaluate_parts lib _ mu).2, (learned_evalOps lib mu rfl h2).1]
  refine ⟨key, fun q u => ?_, fun q u => ?_, fun q0 n inputs => ?_⟩
  · simp only [PModel.rhs, key]
  · simp only [PModel.jacobian, key]
  · simp only [PModel.predict, key]

/-- **C58** (known dimensions). If every affine operator knows its parameter dimension, no calls change the model, whatever the
parameters and whether they raise or not. -/
theorem C58_calls_known [Field K] (lib : ItpLib K) (M : PModel K S) (cs : List (PUse K))
    (h : ∀ s ∈ M.slots, ∀ a : Affine K, s.op = .aff a → a.p.isSome) : runUses lib M cs = M := by
  induction cs with
  | nil => rfl
  | cons c cs ih =>
    have : c.run lib M = M := by
      rw [use_evaluates, (evaluate_parts lib _ _).1]
      have hl := (learned_evalOps lib c.param rfl (learned_refl c.param.dim M.slots)).2
      have : (evalOps lib c.param M.slots).1 = M.slots := by
        generalize (evalOps lib c.param M.slots).1 = ss at hl
        revert h
        generalize M.slots = ts at hl
        intro h
        induction hl with
        | nil => rfl
        | @cons s s' ts ss hs _ ih =>
          rw [ih (fun t ht => h t (mem_cons_of_mem _ ht))]
          rcases hs with ⟨h1, h2 | ⟨a, h2, h3, -⟩⟩
          · cases s; cases s'; simp only at h1 h2; subst h1; subst h2; rfl
          · have := h s mem_cons_self a h2
            rw [h3] at this
            cases this
      rw [this]
    rw [runUses, this]
    exact ih

/-! ### Non-vacuity -/

/-- A model whose affine operator does not know its parameter dimension and accepts parameters of dimension 1 only. -/
def lifeP : PModel ℚ Unit :=
  ⟨[⟨.aff ⟨.lin, 2, fun mu => if mu.dim = 1 then .ok (.vec (1 :: mu.toList)) else .error .index, none,
    some [⟨1, 1, [[1]]⟩, ⟨1, 1, [[2]]⟩]⟩, false⟩], false, some 1, some 0, true, none, none, none⟩

-- the hypotheses of `C58_calls_independent` hold for calls that change the model and for calls that raise
example : (runUses evalExLib lifeP [.rhs (.scalar 5) [1, 2] none, .predict (.vec [2]) [1] 3 .none]).slots.map
      (fun s => s.op.paramDim) = [some 1] ∧
    ((runUses evalExLib lifeP [.rhs (.scalar 5) [1, 2] none, .predict (.vec [2]) [1] 3 .none]).rhs evalExLib (.scalar 3)
      [1] none).2 = .ok [7] := by
  refine ⟨by decide +kernel, ?_⟩
  rw [(C58_calls_independent evalExLib [.rhs (.scalar 5) [1, 2] none, .predict (.vec [2]) [1] 3 .none] (.scalar 3)
    (by decide) lifeP).2.1]
  decide +kernel

/-- **C58** (the dimension matters). One call at a parameter of another dimension, which raises, makes the model refuse all
parameters of the dimension its coefficient functions want. -/
theorem C58_calls_dimension_witness :
    (lifeP.rhs evalExLib (.scalar 3) [1] none).2 = .ok [7] ∧
    (lifeP.rhs evalExLib (.vec [1, 2]) [1] none).2 = .error .index ∧
    ((runUses evalExLib lifeP [.rhs (.vec [1, 2]) [1] none]).rhs evalExLib (.scalar 3) [1] none).2 = .error .value := by
  refine ⟨by decide +kernel, by decide +kernel, by decide +kernel⟩

end Opinf
