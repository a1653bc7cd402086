import Verif.Props.ParamDims
import Verif.Props.ParamGalerkin

/-!
# C58: what the evaluation of a parametric model leaves behind

Specification: every operator is replaced by what its own evaluation leaves behind.
-/

namespace Opinf

open List

variable {K S : Type}

/-- The slot after the evaluation of its operator. -/
def PSlot.evaluated [Semiring K] (lib : ItpLib K) (mu : Par K) (s : PSlot K) : PSlot K :=
  { s with op := (s.op.evaluate lib mu).1 }

theorem forall₂_mem_left {α β : Type} {P : α → β → Prop} {l : List α} {l' : List β} (h : Forall₂ P l l') :
    ∀ a ∈ l, ∃ b, b ∈ l' ∧ P a b := by
  induction h with
  | nil => simp
  | cons h _ ih =>
    intro a ha
    rcases mem_cons.1 ha with rfl | ha
    · exact ⟨_, mem_cons_self, h⟩
    · obtain ⟨b, hb, hp⟩ := ih a ha
      exact ⟨b, mem_cons_of_mem _ hb, hp⟩

theorem evalOps_fst [Semiring K] (lib : ItpLib K) (mu : Par K) (ss : List (PSlot K)) (ops : List (Op K))
    (h : (evalOps lib mu ss).2 = .ok ops) : (evalOps lib mu ss).1 = ss.map (PSlot.evaluated lib mu) := by
  induction ss generalizing ops with
  | nil => rfl
  | cons s ss ih =>
    unfold evalOps at h ⊢
    rcases he : s.op.evaluate lib mu with ⟨o, _ | op⟩
    · rw [he] at h; cases h
    · rw [he] at h
      rcases hs : evalOps lib mu ss with ⟨ss', _ | ops'⟩
      · rw [hs] at h; cases h
      · have := ih ops' (by rw [hs])
        rw [hs] at this
        simp only at this ⊢
        rw [map_cons, this, PSlot.evaluated, he]

theorem evalOps_partial [Semiring K] (lib : ItpLib K) (mu : Par K) (ss : List (PSlot K)) :
    ∃ k, (evalOps lib mu ss).1 = (ss.take k).map (PSlot.evaluated lib mu) ++ ss.drop k := by
  induction ss with
  | nil => exact ⟨0, rfl⟩
  | cons s ss ih =>
    obtain ⟨k, hk⟩ := ih
    unfold evalOps
    rcases he : s.op.evaluate lib mu with ⟨o, _ | op⟩
    · exact ⟨1, by simp [PSlot.evaluated, he]⟩
    · refine ⟨k + 1, ?_⟩
      rcases hs : evalOps lib mu ss with ⟨ss', _ | ops'⟩ <;>
      · rw [hs] at hk
        simp only at hk ⊢
        rw [take_succ_cons, map_cons, cons_append, drop_succ_cons, hk, PSlot.evaluated, he]

theorem evaluated_dim [Semiring K] (lib : ItpLib K) (o : POp K) (mu : Par K) (op : Op K)
    (h : (o.evaluate lib mu).2 = .ok op) : o.isParam = true → (o.evaluate lib mu).1.paramDim = some mu.dim := by
  intro hp
  cases o with
  | np o => cases hp
  | aff a =>
    simp only [POp.evaluate, POp.paramDim] at h ⊢
    unfold Affine.evaluate at h ⊢
    cases hE : a.entries with
    | none => rw [hE] at h; cases h
    | some As =>
      rw [hE] at h
      simp only at h ⊢
      by_cases hd : some mu.dim ≠ (a.learnDim mu).p
      · rw [if_pos hd] at h; cases h
      · rw [if_neg hd]
        exact (not_not.1 hd).symm
  | itp t =>
    simp only [POp.evaluate, POp.paramDim] at h ⊢
    unfold Interp.evaluate at h
    cases hE : t.entries with
    | none => rw [hE] at h; cases h
    | some As =>
      rw [hE] at h
      simp only at h
      cases hp : t.p with
      | none => rw [hp] at h; cases h
      | some p =>
        rw [hp] at h
        simp only at h
        by_cases hd : mu.dim ≠ p
        · rw [if_pos hd] at h; cases h
        · rw [not_not.1 hd]

theorem evaluate_wrong_dim [Semiring K] (lib : ItpLib K) (o : POp K) (p : Nat) (hp : o.paramDim = some p) (nu : Par K)
    (hnu : nu.dim ≠ p) : ∃ e, (o.evaluate lib nu).2 = .error e := by
  cases o with
  | np o => cases hp
  | aff a =>
    simp only [POp.evaluate, POp.paramDim] at hp ⊢
    unfold Affine.evaluate
    cases hE : a.entries with
    | none => exact ⟨_, rfl⟩
    | some As =>
      have : a.learnDim nu = a := by unfold Affine.learnDim; rw [hp]; rfl
      simp only [this, hp]
      rw [if_pos (by simpa using hnu)]
      exact ⟨_, rfl⟩
  | itp t =>
    simp only [POp.evaluate, POp.paramDim] at hp ⊢
    unfold Interp.evaluate
    cases hE : t.entries with
    | none => exact ⟨_, rfl⟩
    | some As =>
      simp only [hp]
      rw [if_pos hnu]
      exact ⟨_, rfl⟩

theorem evaluate_again [Semiring K] (lib : ItpLib K) (o : POp K) (mu : Par K) :
    (o.evaluate lib mu).1.evaluate lib mu = o.evaluate lib mu := by
  cases o with
  | np o => rfl
  | itp t => rfl
  | aff a =>
    have e : (a.evaluate mu).1 = if a.entries = none then a else a.learnDim mu := by
      unfold Affine.evaluate
      cases a.entries with
      | none => rfl
      | some As =>
        simp only
        by_cases hd : some mu.dim ≠ (a.learnDim mu).p
        · rw [if_pos hd]; rfl
        · rw [if_neg hd]; rfl
    simp only [POp.evaluate]
    by_cases hE : a.entries = none
    · rw [if_pos hE] at e
      rw [e, e]
    · have hl : (a.learnDim mu).learnDim mu = a.learnDim mu := by
        unfold Affine.learnDim
        cases h : a.p <;> simp [h]
      have he : (a.learnDim mu).entries = a.entries := by
        unfold Affine.learnDim
        split <;> rfl
      have : (a.learnDim mu).evaluate mu = a.evaluate mu := by
        unfold Affine.evaluate
        rw [he, hl]
        cases hA : a.entries with
        | none => exact absurd hA hE
        | some As => rfl
      have e' := e
      rw [if_neg hE] at e'
      rw [e', this, e']

/-! ### Property theorems -/

/-- **C58** (what evaluation leaves behind). A successful evaluation at `mu` replaces every operator by what its own evaluation
leaves behind and changes nothing else. Afterwards every parametric operator has the parameter dimension of `mu`. -/
theorem C58_after_evaluation [Field K] (lib : ItpLib K) (M : PModel K S) (mu : Par K) (N : Model K S)
    (h : (M.evaluate lib mu).2 = .ok N) :
    (M.evaluate lib mu).1 = { M with slots := M.slots.map (PSlot.evaluated lib mu) } ∧
      ∀ s ∈ (M.evaluate lib mu).1.slots, s.op.isParam = true → s.op.paramDim = some mu.dim := by
  unfold PModel.evaluate at h ⊢
  rcases he : evalOps lib mu M.slots with ⟨ss, _ | ops⟩
  · rw [he] at h; cases h
  · have h2 : (evalOps lib mu M.slots).2 = .ok ops := by rw [he]
    have h1 := evalOps_fst lib mu M.slots ops h2
    rw [he] at h1
    simp only at h1 ⊢
    subst h1
    refine ⟨rfl, fun s hs hp => ?_⟩
    obtain ⟨s', hs', rfl⟩ := mem_map.1 hs
    obtain ⟨op, _, ho⟩ := forall₂_mem_left ((evalOps_snd_iff lib mu M.slots ops).1 h2) s' hs'
    refine evaluated_dim lib s'.op mu op ho ?_
    rw [← (C58_learned_dimension lib s'.op mu).2.2.1]
    exact hp

/-- **C58** (evaluating again). After a successful evaluation at `mu`, evaluating at `mu` again changes nothing and gives the
same model; if there is a parametric operator, evaluating at a parameter of another dimension raises an error. -/
theorem C58_evaluated_again [Field K] (lib : ItpLib K) (M : PModel K S) (mu : Par K) (N : Model K S)
    (h : (M.evaluate lib mu).2 = .ok N) :
    (M.evaluate lib mu).1.evaluate lib mu = M.evaluate lib mu ∧
      ((∃ s ∈ M.slots, s.op.isParam = true) → ∀ nu : Par K, nu.dim ≠ mu.dim →
        ∃ e, ((M.evaluate lib mu).1.evaluate lib nu).2 = .error e) := by
  obtain ⟨h1, h2⟩ := C58_after_evaluation lib M mu N h
  constructor
  · have hev : ∀ ss : List (PSlot K), evalOps lib mu (ss.map (PSlot.evaluated lib mu)) = evalOps lib mu ss ∨
        ∃ e, (evalOps lib mu ss).2 = .error e := by
      intro ss
      induction ss with
      | nil => exact .inl rfl
      | cons s ss ih =>
        rcases he : s.op.evaluate lib mu with ⟨o, e | op⟩
        · refine .inr ⟨e, ?_⟩
          unfold evalOps
          rw [he]
        · have ha : o.evaluate lib mu = (o, .ok op) := by
            have := evaluate_again lib s.op mu
            rwa [he] at this
          rcases ih with ih | ⟨e, ih⟩
          · left
            rw [map_cons]
            have hs : s.evaluated lib mu = { s with op := o } := by rw [PSlot.evaluated, he]
            rw [hs]
            unfold evalOps
            simp only [ha, he, ih]
          · right
            refine ⟨e, ?_⟩
            unfold evalOps
            rcases hs : evalOps lib mu ss with ⟨ss', e' | ops'⟩
            · rw [hs] at ih
              cases ih
              simp only [he]
            · rw [hs] at ih; cases ih
    have hev := hev M.slots
    conv_lhs => rw [h1]
    unfold PModel.evaluate at h ⊢
    rcases hev with hev | ⟨e, hev⟩
    · simp only [hev]
    · rcases he : evalOps lib mu M.slots with ⟨ss, _ | ops⟩
      · rw [he] at h; cases h
      · rw [he] at hev; cases hev
  · rintro ⟨s, hs, hp⟩ nu hnu
    unfold PModel.evaluate
    rcases he : evalOps lib nu (M.evaluate lib mu).1.slots with ⟨ss, e | ops⟩
    · refine ⟨e, ?_⟩
      unfold PModel.evaluate at he
      rw [he]
    · exfalso
      have hsm : s.evaluated lib mu ∈ (M.evaluate lib mu).1.slots := by
        rw [h1]; exact mem_map_of_mem hs
      have hd := h2 _ hsm (by rw [PSlot.evaluated, (C58_learned_dimension lib s.op mu).2.2.1]; exact hp)
      obtain ⟨op, _, ho⟩ := forall₂_mem_left ((evalOps_snd_iff lib nu _ ops).1 (by rw [he])) _ hsm
      obtain ⟨e, he⟩ := evaluate_wrong_dim lib _ _ hd nu hnu
      rw [he] at ho
      cases ho

/-- **C58** (failed evaluations). Whatever happens, only operators up to some position are replaced by what their evaluation
leaves behind. -/
theorem C58_after_failure [Semiring K] (lib : ItpLib K) (M : PModel K S) (mu : Par K) :
    ∃ k, (M.evaluate lib mu).1 = { M with slots := (M.slots.take k).map (PSlot.evaluated lib mu) ++ M.slots.drop k } := by
  obtain ⟨k, hk⟩ := evalOps_partial lib mu M.slots
  refine ⟨k, ?_⟩
  rw [← hk]
  unfold PModel.evaluate
  rcases evalOps lib mu M.slots with ⟨ss, _ | ops⟩ <;> rfl

/-- A model with one affine operator that does not know its parameter dimension. -/
def evalEx : PModel ℚ Unit :=
  ⟨[⟨.aff ⟨.lin, 2, fun mu => .ok (.vec (1 :: mu.toList)), none, some [⟨1, 1, [[1]]⟩, ⟨1, 1, [[2]]⟩]⟩, false⟩], false, some 1, some 0,
    true, none, none, none⟩

def evalExLib : ItpLib ℚ := ⟨fun _ _ _ => .error .value, fun _ _ _ _ => .error .value⟩

-- the hypotheses hold for an evaluation at which the operator learns its parameter dimension
example : (∃ N, (evalEx.evaluate evalExLib (.scalar 3)).2 = .ok N) ∧
    evalEx.slots.map (fun s => s.op.paramDim) = [none] ∧
    (evalEx.evaluate evalExLib (.scalar 3)).1.slots.map (fun s => s.op.paramDim) = [some 1] := by
  refine ⟨?_, by decide +kernel, by decide +kernel⟩
  cases h : (evalEx.evaluate evalExLib (.scalar 3)).2 with
  | ok N => exact ⟨N, rfl⟩
  | error e =>
    have : (evalEx.evaluate evalExLib (.scalar 3)).2.isOk = true := by decide +kernel
    rw [h] at this
    cases this

end Opinf
