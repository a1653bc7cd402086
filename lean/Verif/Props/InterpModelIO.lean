import Verif.Lemmas.InterpModelIO
import Verif.Props.InterpRefit

/-!
# C83: interpolatory models from models, copies and files
-/

namespace Opinf

open List

variable {K S : Type}

/-- Two parametric models with the same operators and dimensions, which evaluate to the same models. -/
structure PModel.SameAs [Field K] (lib : ItpLib K) (N M : PModel K S) : Prop where
  ops : N.ops = M.ops
  r : N.r = M.r
  m : N.m = M.m
  p : N.p = M.p
  inputs : N.hasInputs = M.hasInputs
  evaluate : ∀ mu, (N.evaluate lib mu).2 = (M.evaluate lib mu).2
  rhs : ∀ mu q u, (N.rhs lib mu q u).2 = (M.rhs lib mu q u).2
  jacobian : ∀ mu q u, (N.jacobian lib mu q u).2 = (M.jacobian lib mu q u).2
  predict : ∀ mu q0 k u, (N.predict lib mu q0 k u).2 = (M.predict lib mu q0 k u).2

theorem PModel.SameAs.of [Field K] (lib : ItpLib K) {N M : PModel K S} (ops : N.ops = M.ops)
    (r : N.r = M.r) (m : N.m = M.m) (p : N.p = M.p) (inputs : N.hasInputs = M.hasInputs) :
    N.SameAs lib M := by
  have h := fun mu => evaluate_snd lib mu N M ops
  refine ⟨ops, r, m, p, inputs, h, ?_, ?_, ?_⟩
  · intro mu q u; simp only [PModel.rhs, h]
  · intro mu q u; simp only [PModel.jacobian, h]
  · intro mu q0 k u; simp only [PModel.predict, h]

/-- An interpolatory model of state dimension `r` and input dimension `m` whose operators are all set, each
with an interpolator made from its own training parameters and entries, of the class of the model if that
is specified. -/
structure IObj.Ready [LinearOrder K] (lib : ItpLib K) (M : IObj K S) (r m : Nat) : Prop where
  pos : 0 < r
  nonempty : M.model.base.slots ≠ []
  ops : ∀ s ∈ M.model.base.slots, ∃ t P As c, s.op = .itp t ∧ t.Settled lib P As r m c ∧
    M.model.base.p = some P.dim ∧ ∀ c' ∈ M.cls, c' = c
  dim : M.model.base.r = some r
  inputs : M.model.base.hasInputs = M.model.base.ops.any fun o => o.kind.hasInputs
  inputDim : M.model.base.m = some (if M.model.base.hasInputs then m else 0)

/-- The interpolator class of some operator of the model. -/
def IObj.Uses (M : IObj K S) (c : ItpClass) : Prop :=
  ∃ s ∈ M.model.base.slots, ∃ t, s.op = .itp t ∧ t.cls = some c

section
variable [LinearOrder K]

/-- The operators of such a model as a list of interpolated operators. -/
theorem IObj.Ready.interps {lib : ItpLib K} {M : IObj K S} {r m : Nat} (h : M.Ready lib r m) :
    ∃ ts : List (Interp K), ts ≠ [] ∧ M.model.base.ops = ts.map POp.itp ∧ ∃ d, M.model.base.p = some d ∧
      ∀ t ∈ ts, ∃ P As c, t.Settled lib P As r m c ∧ P.dim = d ∧ (∀ c' ∈ M.cls, c' = c) ∧ M.Uses c := by
  obtain ⟨s, hs⟩ := exists_mem_of_ne_nil _ h.nonempty
  obtain ⟨-, P0, -, -, -, -, hp, -⟩ := h.ops s hs
  have key : ∀ slots : List (PSlot K), (∀ s ∈ slots, s ∈ M.model.base.slots) →
      ∃ ts : List (Interp K), slots.map PSlot.op = ts.map POp.itp ∧
      ∀ t ∈ ts, ∃ P As c, t.Settled lib P As r m c ∧ P.dim = P0.dim ∧ (∀ c' ∈ M.cls, c' = c) ∧ M.Uses c := by
    intro slots
    induction slots with
    | nil => intro _; exact ⟨[], rfl, by simp⟩
    | cons s ss ih =>
      intro hsub
      obtain ⟨ts, h1, h2⟩ := ih fun s' hs' => hsub s' (mem_cons_of_mem _ hs')
      obtain ⟨t, P, As, c, a1, a2, a3, a4⟩ := h.ops s (hsub s mem_cons_self)
      refine ⟨t :: ts, by rw [map_cons, map_cons, a1, h1], ?_⟩
      intro t' ht'
      rcases mem_cons.mp ht' with rfl | ht'
      · rw [hp, Option.some.injEq] at a3
        exact ⟨P, As, c, a2, a3.symm, a4, s, hsub s mem_cons_self, t', a1, a2.cls⟩
      · exact h2 t' ht'
  obtain ⟨ts, h1, h2⟩ := key _ fun s hs => hs
  refine ⟨ts, ?_, h1, P0.dim, hp, h2⟩
  rintro rfl
  rw [map_nil, map_eq_nil_iff] at h1
  exact h.nonempty h1

theorem uses_iff {M : IObj K S} {ts : List (Interp K)} (h : M.model.base.ops = ts.map POp.itp) (c : ItpClass) :
    M.Uses c ↔ ∃ t ∈ ts, t.cls = some c := by
  constructor
  · rintro ⟨s, hs, t, ht, hc⟩
    have : s.op ∈ ts.map POp.itp := by rw [← h]; exact mem_map.mpr ⟨s, hs, rfl⟩
    obtain ⟨t', ht', he⟩ := mem_map.mp this
    rw [ht, POp.itp.injEq] at he
    exact ⟨t', ht', by rw [he]; exact hc⟩
  · rintro ⟨t, ht, hc⟩
    have : POp.itp t ∈ M.model.base.ops := by rw [h]; exact mem_map.mpr ⟨t, ht, rfl⟩
    obtain ⟨s, hs, he⟩ := mem_map.mp this
    exact ⟨s, hs, t, he, hc⟩

/-! ### Copies -/

/-- **C83, copies of parametric models.** Let the operators of a parametric model be set, with consistent
dimensions, and each equal to its copy (which C11, C20 and C66 establish for the three types of operators).
Then the model can be copied; the copy has the same operators and dimensions and evaluates to the same
models. -/
theorem C83_parametric_copy [Field K] (lib : ItpLib K) (plain : S) (M : PModel K S) (r m : Nat)
    (hne : M.ops ≠ []) (hops : ∀ o ∈ M.ops, o.Full r m M.p ∧ o.copy lib = .ok o)
    (hp : ∀ d, M.p = some d → ∃ o ∈ M.ops, o.isParam = true) (hr : M.r = some r)
    (hin : M.hasInputs = M.ops.any fun o => o.kind.hasInputs)
    (hm : M.m = some (if M.hasInputs then m else 0)) :
    ∃ N, M.copy lib plain = .ok N ∧ N.SameAs lib M := by
  have hc : M.ops.mapM (POp.copy lib) = .ok M.ops := by
    rw [mapM_ok_forall2, forall₂_same]
    exact fun o ho => (hops o ho).2
  refine ⟨⟨M.ops.map fun o => ⟨o, false⟩, M.ops.any fun o => o.kind.hasInputs, some r,
    some (if M.ops.any fun o => o.kind.hasInputs then m else 0), true, none, M.p, none⟩, ?_, ?_⟩
  · rw [PModel.copy, hc]
    exact pconstruct_full M.ops _ r m M.p hne (fun o ho => (hops o ho).1) hp
  · apply PModel.SameAs.of
    · rw [PModel.ops, map_map]
      exact (map_congr_left fun _ _ => rfl).trans (map_id _)
    · exact hr.symm
    · rw [hm, hin]
    · rfl
    · exact hin.symm

/-- **C83, copies of parametric models.** The copy of a model that has just been constructed (with operators that are
equal to their copies) is the same model: same operators to infer, dimensions and solver. -/
theorem C83_constructed_copy [Field K] (lib : ItpLib K) (plain s : S) (ops : List (POp K)) (M : PModel K S)
    (hM : PModel.construct ops s = .ok M) (hops : ∀ o ∈ M.ops, o.copy lib = .ok o) : M.copy lib plain = .ok M := by
  have hc : M.ops.mapM (POp.copy lib) = .ok M.ops := by
    rw [mapM_ok_forall2, forall₂_same]
    exact hops
  rw [PModel.copy, hc]
  simp only
  rw [pconstruct_again ops s _ M hM]
  obtain ⟨slots, hasInputs, r, m, intrusive, solver, p, sn⟩ := M
  cases solver <;> rfl

/-- **C83, copies.** A trained interpolatory model can be copied; the copy has the same operators,
dimensions and interpolator class, evaluates to the same models, and can be copied, saved and loaded in
turn. -/
theorem C83_copy [Field K] (lib : ItpLib K) (plain : S) (M : IObj K S) (r m : Nat) (h : M.Ready lib r m) :
    ∃ N, M.copy lib plain = .ok N ∧ N.model.base.SameAs lib M.model.base ∧ N.cls = M.cls ∧
      N.Ready lib r m := by
  obtain ⟨ts, hne, hops, d, hd, hts⟩ := h.interps
  have hc : M.model.base.ops.mapM (POp.copy lib) = .ok (ts.map POp.itp) := by
    rw [hops, mapM_ok_forall2, forall₂_same]
    intro o ho
    obtain ⟨t, ht, rfl⟩ := mem_map.mp ho
    obtain ⟨P, As, c, hS, -, -⟩ := hts t ht
    rw [POp.copy, hS.copy_eq h.pos]
    rfl
  have hcon := iconstruct_full (S := S) lib ts plain M.cls r m d hne (by
    intro t ht
    obtain ⟨P, As, c, hS, hPd, -⟩ := hts t ht
    rw [← hPd]
    exact hS.full h.pos) (by
    intro t ht c' hc'
    obtain ⟨P, As, c, hS, -, hcl, -⟩ := hts t ht
    rw [hcl c' hc']
    exact hS.setInterpolator)
  have hany : M.model.base.hasInputs = ts.any fun t => t.kind.hasInputs := by
    rw [h.inputs, hops, any_map]; rfl
  refine ⟨⟨⟨⟨ts.map fun t => ⟨.itp t, false⟩, ts.any fun t => t.kind.hasInputs, some r,
    some (if ts.any fun t => t.kind.hasInputs then m else 0), true, none, some d, none⟩, none, []⟩, M.cls⟩,
    by rw [IObj.copy, hc]; simp only [IObj.construct, hcon]; rfl, ?_, rfl, ?_⟩
  · apply PModel.SameAs.of
    · rw [hops, PModel.ops, map_map]; rfl
    · exact h.dim.symm
    · rw [h.inputDim, hany]
    · exact hd.symm
    · exact hany.symm
  · refine ⟨h.pos, by simpa using hne, ?_, rfl, ?_, rfl⟩
    · intro s hs
      obtain ⟨t, ht, rfl⟩ := mem_map.mp hs
      obtain ⟨P, As, c, hS, hPd, hcl, -⟩ := hts t ht
      exact ⟨t, P, As, c, rfl, hS, by rw [hPd], hcl⟩
    · simp only [PModel.ops, map_map, any_map]
      rfl

/-! ### Files -/

theorem mapM_error_of {α β : Type} (f : α → Except Err β) (e : Err) (l : List α)
    (h : ∀ a ∈ l, (∃ b, f a = .ok b) ∨ f a = .error e) (hx : ∃ a ∈ l, f a = .error e) :
    l.mapM f = .error e := by
  induction l with
  | nil => obtain ⟨a, ha, -⟩ := hx; cases ha
  | cons a l ih =>
    rw [mapM_cons]
    rcases h a mem_cons_self with ⟨b, hb⟩ | hb
    · rw [hb]
      have : ∃ a ∈ l, f a = .error e := by
        obtain ⟨a', ha', he⟩ := hx
        rcases mem_cons.mp ha' with rfl | ha'
        · rw [hb] at he; cases he
        · exact ⟨a', ha', he⟩
      change (l.mapM f).bind _ = _
      rw [ih (fun a' ha' => h a' (mem_cons_of_mem _ ha')) this]
      rfl
    · rw [hb]; rfl

theorem save_ops {M : IObj K S} {ts : List (Interp K)} (h : M.model.base.ops = ts.map POp.itp) :
    M.save.ops = ts.map Interp.save := by
  rw [IObj.save]
  simp only
  rw [h, filterMap_map]
  have : ((fun o : POp K => o.interp?.map Interp.save) ∘ POp.itp) = some ∘ Interp.save := rfl
  rw [this, ← filterMap_map, filterMap_some]

theorem restoreInfer_id (M : PModel K S) (N : PModel K S) (h : M.ops = N.ops) :
    (restoreInfer (N.slots.map PSlot.infer) M).slots = N.slots := by
  simp only [restoreInfer]
  rw [PModel.ops, PModel.ops] at h
  generalize M.slots = a at h
  generalize N.slots = b at h
  induction b generalizing a with
  | nil => simp
  | cons t b ih =>
    cases a with
    | nil => simp at h
    | cons s a =>
      simp only [map_cons, cons.injEq] at h
      rw [map_cons, zipWith_cons_cons, ih a h.2, h.1]

/-- **C83, files.** A trained interpolatory model that was saved can be loaded if the class of its
interpolators is passed, or if nothing is passed and all the classes are found in `scipy.interpolate`. The
loaded model has the same operators and dimensions, evaluates to the same models, records the same
operators as inferred, and can be copied, saved and loaded in turn; but it does not know the interpolator
class of the model any more. -/
theorem C83_load [Field K] (lib : ItpLib K) (plain : S) (M : IObj K S) (r m : Nat) (h : M.Ready lib r m)
    (given : Option ItpClass)
    (hg : (∃ c, given = some c ∧ ∀ c', M.Uses c' → c' = c) ∨
      given = none ∧ ∀ c, M.Uses c → c.inScipy = true) :
    ∃ N, IObj.load lib plain M.save given = .ok N ∧ N.model.base.SameAs lib M.model.base ∧
      N.model.base.slots = M.model.base.slots ∧ N.cls = none ∧ N.Ready lib r m := by
  obtain ⟨ts, hne, hops, d, hd, hts⟩ := h.interps
  have hany : M.model.base.hasInputs = ts.any fun t => t.kind.hasInputs := by
    rw [h.inputs, hops, any_map]; rfl
  -- the class passed on to the operators
  obtain ⟨g, hgl, hgop⟩ : ∃ g, loadClass M.cls given = .ok g ∧
      ∀ c, (∀ c' ∈ M.cls, c' = c) → M.Uses c → g = some c ∨ g = none ∧ c.inScipy = true := by
    rcases hg with ⟨c, rfl, hc⟩ | ⟨rfl, hc⟩
    · exact ⟨some c, by simp [loadClass], fun c' _ hu => Or.inl (by rw [hc c' hu])⟩
    · obtain ⟨t, ht⟩ := exists_mem_of_ne_nil ts hne
      obtain ⟨-, -, c0, -, -, hcl0, hu0⟩ := hts t ht
      cases hcls : M.cls with
      | none => exact ⟨none, rfl, fun c' _ hu => Or.inr ⟨rfl, hc c' hu⟩⟩
      | some k =>
        have hk : k = c0 := hcl0 k hcls
        refine ⟨some k, ?_, fun c' hcl _ => Or.inl ?_⟩
        · simp [loadClass, hk, hc c0 hu0]
        · rw [hcl k rfl]
  have hload : M.save.ops.mapM (fun f => Interp.load lib f.kind f g) = .ok ts := by
    rw [save_ops hops, mapM_ok_forall2, forall₂_map_left_iff, forall₂_same]
    intro t ht
    obtain ⟨P, As, c, hS, -, hcl, hu⟩ := hts t ht
    exact hS.load_eq h.pos g (hgop c hcl hu)
  have hfull : ∀ t ∈ ts, (POp.itp t).Full r m (some d) := by
    intro t ht
    obtain ⟨P, As, c, hS, hPd, -⟩ := hts t ht
    rw [← hPd]
    exact hS.full h.pos
  have hcon := iconstruct_full (S := S) lib ts plain none r m d hne hfull (by simp)
  obtain ⟨B0, hB0⟩ : ∃ B0 : PModel K S, B0 = ⟨ts.map fun t => ⟨.itp t, false⟩,
      ts.any fun t => t.kind.hasInputs, some r, some (if ts.any fun t => t.kind.hasInputs then m else 0),
      true, none, some d, none⟩ := ⟨_, rfl⟩
  rw [← hB0] at hcon
  have hslots : (restoreInfer M.save.infer B0).slots = M.model.base.slots := by
    apply restoreInfer_id
    rw [hops, hB0, PModel.ops, map_map]; rfl
  have hops' : (restoreInfer M.save.infer B0).ops = ts.map POp.itp := by
    rw [PModel.ops, hslots]; exact hops
  have hsr : M.save.r = r := by simp [IObj.save, h.dim]
  have hst : restoreStateDim M.save.r (restoreInfer M.save.infer B0) = .ok (restoreInfer M.save.infer B0) := by
    rw [hsr, restoreStateDim, if_neg (by have := h.pos; omega), PModel.setStateDim, if_neg]
    · simp only [finish, hB0, restoreInfer]
    · rw [hops', Bool.not_eq_true, any_eq_false]
      intro o ho
      obtain ⟨t, ht, rfl⟩ := mem_map.mp ho
      simp [(hfull t ht).state]
  have hsm : M.save.m = if M.model.base.hasInputs then m else 0 := by simp [IObj.save, h.inputDim]
  have hin : restoreInputDim M.save.m (restoreInfer M.save.infer B0) = .ok (restoreInfer M.save.infer B0) := by
    rw [restoreInputDim]
    by_cases hc : M.save.m ≠ 0 ∧ (restoreInfer M.save.infer B0).hasInputs = true
    · rw [if_pos hc]
      have hi : M.model.base.hasInputs = true := by
        rw [hany]
        have := hc.2
        rwa [hB0] at this
      have hm : M.save.m = m := by rw [hsm, if_pos hi]
      rw [PModel.setInputDim, if_neg (by simp [hc.2]), if_neg]
      · have hB0m : B0.m = some M.save.m := by rw [hB0, hm, ← hany, if_pos hi]
        simp only [finish, restoreInfer]
        rw [← hB0m]
      · rw [hops', Bool.not_eq_true, any_eq_false]
        intro o ho
        obtain ⟨t, ht, rfl⟩ := mem_map.mp ho
        rw [hm]
        cases hh : (POp.itp t).kind.hasInputs with
        | false => simp
        | true => simp [(hfull t ht).input hh]
    · rw [if_neg hc]
  refine ⟨⟨⟨restoreInfer M.save.infer B0, none, []⟩, none⟩, ?_, ?_, hslots, rfl, ?_⟩
  · have hgl' : loadClass M.save.cls given = .ok g := hgl
    have hcon' : IObj.construct lib (ts.map POp.itp) plain none
        = (.ok ⟨⟨B0, none, []⟩, none⟩ : Except Err (IObj K S)) := by
      rw [IObj.construct, hcon]; rfl
    rw [IObj.load, hgl']
    simp only
    rw [hload]
    simp only
    rw [hcon']
    simp only
    rw [hst]
    simp only
    rw [hin]
  · apply PModel.SameAs.of
    · rw [hops']; exact hops.symm
    · rw [h.dim]; simp [restoreInfer, hB0]
    · rw [h.inputDim, hany]; simp [restoreInfer, hB0]
    · rw [hd]; simp [restoreInfer, hB0]
    · rw [hany]; simp [restoreInfer, hB0]
  · refine ⟨h.pos, by rw [show (restoreInfer M.save.infer B0).slots = _ from hslots]; exact h.nonempty, ?_,
      by simp [restoreInfer, hB0], ?_, by simp [restoreInfer, hB0]⟩
    · intro s hs
      simp only [hslots] at hs
      obtain ⟨t, P, As, c, a1, a2, a3, -⟩ := h.ops s hs
      exact ⟨t, P, As, c, a1, a2, by rw [← a3, hd]; simp [restoreInfer, hB0], by simp⟩
    · simp only
      rw [hops', any_map]
      simp only [restoreInfer, hB0]
      rfl

/-- **C83, files of models with other interpolator classes.** `save` warns exactly if some operator of the
model uses a class that is not in `scipy.interpolate`; then loading the file without passing the class
raises `ValueError`, and otherwise it succeeds. -/
theorem C83_warning [Field K] (lib : ItpLib K) (plain : S) (M : IObj K S) (r m : Nat)
    (h : M.Ready lib r m) :
    (M.saveWarns = true ↔ ∃ c, M.Uses c ∧ c.inScipy = false) ∧
    (M.saveWarns = true → IObj.load lib plain M.save none = .error .value) ∧
    (M.saveWarns = false → ∃ N, IObj.load lib plain M.save none = .ok N) := by
  obtain ⟨ts, hne, hops, d, hd, hts⟩ := h.interps
  have hiff : M.saveWarns = true ↔ ∃ c, M.Uses c ∧ c.inScipy = false := by
    rw [IObj.saveWarns, Bool.or_eq_true, any_eq_true]
    constructor
    · rintro (hc | ⟨o, ho, hc⟩)
      · cases hcls : M.cls with
        | none => rw [hcls] at hc; simp [needsClass] at hc
        | some k =>
          rw [hcls] at hc
          obtain ⟨t, ht⟩ := exists_mem_of_ne_nil ts hne
          obtain ⟨-, -, c0, -, -, hcl0, hu0⟩ := hts t ht
          refine ⟨k, ?_, by simpa [needsClass] using hc⟩
          rw [hcl0 k hcls]; exact hu0
      · rw [hops] at ho
        obtain ⟨t, ht, rfl⟩ := mem_map.mp ho
        obtain ⟨P, As, c, hS, -, -, hu⟩ := hts t ht
        simp only [POp.interp?, hS.cls, needsClass, Option.any_some] at hc
        exact ⟨c, hu, by simpa using hc⟩
    · rintro ⟨c, hu, hc⟩
      obtain ⟨t, ht, htc⟩ := (uses_iff hops c).mp hu
      refine Or.inr ⟨.itp t, by rw [hops]; exact mem_map.mpr ⟨t, ht, rfl⟩, ?_⟩
      simp [POp.interp?, htc, needsClass, hc]
  refine ⟨hiff, ?_, ?_⟩
  · intro hw
    obtain ⟨c, hu, hc⟩ := hiff.mp hw
    obtain ⟨t0, ht0, htc⟩ := (uses_iff hops c).mp hu
    obtain ⟨P, As, c1, hS, -, hcl, -⟩ := hts t0 ht0
    have hc1 : c1 = c := by rw [hS.cls] at htc; exact Option.some.inj htc
    subst hc1
    rw [IObj.load]
    cases hcls : M.cls with
    | some k =>
      have : loadClass M.save.cls none = .error .value := by
        simp [IObj.save, hcls, loadClass, hcl k hcls, hc]
      rw [this]
    | none =>
      have : loadClass M.save.cls none = .ok none := by
        simp [IObj.save, hcls, loadClass]
      rw [this]
      simp only
      have hone : ∀ t ∈ ts, ∀ c, t.cls = some c → c.inScipy = false →
          Interp.load lib t.save.kind t.save none = .error .value := by
        intro t ht c htc hc
        rw [Interp.load, if_neg (by simp)]
        simp [Interp.save, htc, loadClass, hc]
      rw [save_ops hops, mapM_error_of _ .value]
      · intro f hf
        obtain ⟨t, ht, rfl⟩ := mem_map.mp hf
        obtain ⟨P', As', c', hS', -, -, -⟩ := hts t ht
        cases hsc : c'.inScipy with
        | true => exact Or.inl ⟨t, hS'.load_eq h.pos none (Or.inr ⟨rfl, hsc⟩)⟩
        | false => exact Or.inr (hone t ht c' hS'.cls hsc)
      · exact ⟨t0.save, mem_map.mpr ⟨t0, ht0, rfl⟩, hone t0 ht0 _ htc hc⟩
  · intro hw
    obtain ⟨N, hN, -⟩ := C83_load lib plain M r m h none (Or.inr ⟨rfl, by
      intro c hu
      cases hc : c.inScipy with
      | true => rfl
      | false =>
        have := hiff.mpr ⟨c, hu, hc⟩
        rw [hw] at this
        cases this⟩)
    exact ⟨N, hN⟩

/-- **C83 (false of the code), no further training.** Neither a copy nor a loaded model can be trained: its
`fit` returns without doing anything, whatever the data, and `refit` raises `RuntimeError`. -/
theorem C83_not_refittable [Field K] (lib : ItpLib K) (plain : S) (M : IObj K S) (r m : Nat)
    (h : M.Ready lib r m) (N : IObj K S)
    (hN : M.copy lib plain = .ok N ∨ ∃ given, IObj.load lib plain M.save given = .ok N)
    (l2 : Int → S) (I : SolverI K S) :
    (∀ ps states lhs inputs, N.model.fit lib plain l2 I ps states lhs inputs = (N.model, .ok ())) ∧
    N.model.refit lib I = (N.model, .error .runtime) := by
  obtain ⟨ts, hne, hops, d, hd, hts⟩ := h.interps
  have hcon : ∀ (ts : List (Interp K)) (c : Option ItpClass) (N : IObj K S),
      (∀ t ∈ ts, t.entries.isSome = true) → IObj.construct lib (ts.map POp.itp) plain c = .ok N →
      N.model.base.intrusive = true ∧ N.model.subs = none := by
    intro ts c N hcal hc
    have hnil : (ts.map POp.itp).filter (fun o => !o.isCal) = [] := by
      rw [filter_eq_nil_iff]
      intro o ho
      obtain ⟨t, ht, rfl⟩ := mem_map.mp ho
      simp [POp.isCal, hcal t ht]
    rw [IObj.construct] at hc
    cases hi : (IModel.construct lib (ts.map POp.itp) plain c : Except Err (IModel K S)) with
    | error e => rw [hi] at hc; cases hc
    | ok M1 =>
      rw [hi] at hc
      cases hc
      unfold IModel.construct at hi
      split at hi
      · cases hi
      · split at hi
        · cases hi
        · split at hi
          · cases hi
          · rename_i B hB
            have hBi : B.intrusive = true := by
              unfold PModel.construct at hB
              split at hB
              · cases hB
              · split at hB
                · cases hB
                · split at hB
                  · cases hB
                  · split at hB
                    · cases hB
                    · rw [hnil] at hB
                      unfold PModel.sync at hB
                      split at hB
                      · cases hB
                      · cases hB; rfl
                      · split at hB
                        · cases hB
                        · cases hB; rfl
            split at hi
            · cases hi
            · cases hi
              exact ⟨hBi, rfl⟩
  have key : N.model.base.intrusive = true ∧ N.model.subs = none := by
    rcases hN with hN | ⟨given, hN⟩
    · have hc : M.model.base.ops.mapM (POp.copy lib) = .ok (ts.map POp.itp) := by
        rw [hops, mapM_ok_forall2, forall₂_same]
        intro o ho
        obtain ⟨t, ht, rfl⟩ := mem_map.mp ho
        obtain ⟨P, As, c, hS, -, -⟩ := hts t ht
        rw [POp.copy, hS.copy_eq h.pos]
        rfl
      rw [IObj.copy, hc] at hN
      exact hcon ts _ N (fun t ht => by
        obtain ⟨P, As, c, hS, -, -⟩ := hts t ht
        rw [hS.entries]; rfl) hN
    · rw [IObj.load] at hN
      split at hN
      · cases hN
      · rename_i g hg
        split at hN
        · cases hN
        · rename_i ts' hts'
          have hent : ∀ t ∈ ts', t.entries.isSome = true := by
            rw [save_ops hops, mapM_ok_forall2, forall₂_map_left_iff] at hts'
            intro t' ht'
            obtain ⟨t, ht, hl⟩ := forall₂_mem_right hts' ht'
            obtain ⟨P, As, c, hS, -, -⟩ := hts t ht
            rw [Interp.load, if_neg (by simp)] at hl
            split at hl
            · cases hl
            · simp only [Interp.save, hS.params, hS.entries, Option.map_some] at hl
              obtain ⟨P', -, -, -, rfl, -⟩ := Interp.make_inv lib _ _ _ r m h.pos As hS.fits _ hl
              rfl
          split at hN
          · cases hN
          · rename_i N0 hN0
            obtain ⟨c1, c2⟩ := hcon ts' none N0 hent hN0
            split at hN
            · cases hN
            · rename_i B hB
              have hBi : B.intrusive = true := by
                unfold restoreStateDim at hB
                split at hB
                · cases hB; exact c1
                · unfold PModel.setStateDim at hB
                  split at hB
                  · cases hB
                  · cases hB; exact c1
              split at hN
              · cases hN
              · rename_i B' hB'
                cases hN
                refine ⟨?_, c2⟩
                unfold restoreInputDim at hB'
                split at hB'
                · unfold PModel.setInputDim at hB'
                  split at hB'
                  · cases hB'
                  · split at hB'
                    · cases hB'
                    · cases hB'; exact hBi
                · cases hB'; exact hBi
  refine ⟨fun ps states lhs inputs => ?_, C68_refit_first lib I _ key.2⟩
  rw [IModel.fit, if_pos key.1]

end

/-- `C83_constructed_copy` for a model with an operator to infer and a known one. -/
def exCopyOps : List (POp ℚ) :=
  [.aff ⟨.lin, 2, fun mu => .ok (.vec (1 :: mu.toList)), none, none⟩, .np ⟨.const, some ⟨1, 1, [[3]]⟩⟩]

example : ∃ M : PModel ℚ Nat, PModel.construct exCopyOps 7 = .ok M ∧ M.solver = some 7 ∧
    M.copy toyLib 0 = .ok M := by
  obtain ⟨M, hM⟩ : ∃ M : PModel ℚ Nat, PModel.construct exCopyOps 7 = .ok M := ⟨_, rfl⟩
  refine ⟨M, hM, ?_, C83_constructed_copy toyLib 0 7 exCopyOps M hM ?_⟩
  · cases hM; rfl
  · have ho : M.ops = exCopyOps := by cases hM; rfl
    rw [ho]
    intro o ho
    simp only [exCopyOps, mem_cons, not_mem_nil, or_false] at ho
    rcases ho with rfl | rfl <;> rfl

end Opinf
