import Verif.Model.InterpModelIO
import Verif.Lemmas.ParamProcess
import Verif.Props.Construct

/-!
# Constructing parametric models from operators whose entries are set
-/

namespace Opinf

open List

variable {K S : Type}

/-- The operator is set, with state dimension `r`, input dimension `m` and (if parametric) parameter
dimension `p`. -/
structure POp.Full (o : POp K) (r m : Nat) (p : Option Nat) : Prop where
  cal : o.isCal = true
  state : o.stateDim = some r
  input : o.kind.hasInputs = true → o.inputDim = some m
  param : o.isParam = true → o.paramDim = p

theorem agree_of_const {ds : List Nat} {d : Nat} (h : ∀ x ∈ ds, x = d) : Agree ds :=
  fun x hx y hy => (h x hx).trans (h y hy).symm

theorem consistentDim_const {ds : List Nat} {d : Nat} (hne : ds ≠ []) (h : ∀ x ∈ ds, x = d) :
    consistentDim ds = .ok (some d) := by
  rw [(consistentDim_iff ds).1 (agree_of_const h)]
  cases ds with
  | nil => exact absurd rfl hne
  | cons x xs => rw [head?_cons, h x mem_cons_self]

theorem fillParamDim_full (p : Nat) (slots : List (PSlot K))
    (h : ∀ s ∈ slots, s.op.isParam = true → s.op.paramDim = some p) :
    fillParamDim p slots = (slots, .ok ()) := by
  induction slots with
  | nil => rfl
  | cons s ss ih =>
    have hs := h s mem_cons_self
    rw [fillParamDim, if_neg, ih fun s' hs' => h s' (mem_cons_of_mem _ hs')]
    intro hc
    rw [Bool.and_eq_true] at hc
    rw [hs hc.1] at hc
    simp at hc

theorem paramDim_isParam {o : POp K} {d : Nat} (h : o.paramDim = some d) : o.isParam = true := by
  cases o <;> simp [POp.paramDim, POp.isParam] at h ⊢

/-- Constructing a parametric model from operators that are all set and consistent. -/
theorem pconstruct_full (ops : List (POp K)) (solver : S) (r m : Nat) (p : Option Nat) (hne : ops ≠ [])
    (h : ∀ o ∈ ops, o.Full r m p) (hp : ∀ d, p = some d → ∃ o ∈ ops, o.isParam = true) :
    PModel.construct ops solver = .ok ⟨ops.map fun o => ⟨o, false⟩, ops.any fun o => o.kind.hasInputs,
      some r, some (if ops.any fun o => o.kind.hasInputs then m else 0), true, none, p, none⟩ := by
  have hnil : ops.filter (fun o => !o.isCal) = [] := by
    rw [filter_eq_nil_iff]
    intro o ho
    simp [(h o ho).cal]
  have hmap : ops.map (fun o => (⟨o, !o.isCal⟩ : PSlot K)) = ops.map fun o => ⟨o, false⟩ :=
    map_congr_left fun o ho => by rw [(h o ho).cal]; rfl
  have hr : pStateDimCheck ops = .ok (some r) := by
    apply consistentDim_const
    · obtain ⟨o, ho⟩ := exists_mem_of_ne_nil ops hne
      exact ne_nil_of_mem (mem_filterMap.mpr ⟨o, ho, (h o ho).state⟩)
    · intro x hx
      obtain ⟨o, ho, hox⟩ := mem_filterMap.mp hx
      rw [(h o ho).state] at hox
      exact (Option.some.inj hox).symm
  have hm : pInputDimCheck ops = .ok (some (if ops.any fun o => o.kind.hasInputs then m else 0)) := by
    rw [pInputDimCheck]
    by_cases hi : (ops.any fun o => o.kind.hasInputs) = true
    · obtain ⟨o, ho, hio⟩ := any_eq_true.mp hi
      have hmem : o ∈ ops.filter fun o => o.kind.hasInputs := mem_filter.mpr ⟨ho, hio⟩
      rw [if_neg (by rw [List.isEmpty_iff]; exact ne_nil_of_mem hmem), if_pos hi]
      apply consistentDim_const
      · exact ne_nil_of_mem (mem_filterMap.mpr ⟨o, hmem, (h o ho).input hio⟩)
      · intro x hx
        obtain ⟨o', ho', hox⟩ := mem_filterMap.mp hx
        obtain ⟨h1, h2⟩ := mem_filter.mp ho'
        rw [(h o' h1).input h2] at hox
        exact (Option.some.inj hox).symm
    · rw [if_neg hi, if_pos]
      rw [List.isEmpty_iff, filter_eq_nil_iff]
      intro o ho hio
      exact hi (any_eq_true.mpr ⟨o, ho, hio⟩)
  have hops : ((ops.map fun o => (⟨o, false⟩ : PSlot K)).map PSlot.op) = ops := by
    rw [map_map]
    exact (map_congr_left fun _ _ => rfl).trans (map_id _)
  rw [PModel.construct, if_neg (by simpa using hne), if_neg (by rw [hnil]; simp), hr]
  simp only
  rw [hm]
  simp only
  rw [hnil, hmap]
  simp only [isEmpty_nil, if_true]
  rw [PModel.sync]
  simp only [PModel.ops]
  rw [hops]
  cases p with
  | none =>
    have hc : commonParamDim ops none = .ok none := by
      have : ops.filterMap POp.paramDim = [] := by
        rw [filterMap_eq_nil_iff]
        intro o ho
        cases hpd : o.paramDim with
        | none => rfl
        | some d => exact absurd ((h o ho).param (paramDim_isParam hpd)) (by simp [hpd])
      rw [commonParamDim, this]
      rfl
    rw [hc]
    rfl
  | some d =>
    have hc : commonParamDim ops none = .ok (some d) := by
      have : consistentDim (ops.filterMap POp.paramDim) = .ok (some d) := by
        apply consistentDim_const
        · obtain ⟨o, ho, hop⟩ := hp d rfl
          exact ne_nil_of_mem (mem_filterMap.mpr ⟨o, ho, (h o ho).param hop⟩)
        · intro x hx
          obtain ⟨o, ho, hox⟩ := mem_filterMap.mp hx
          rw [(h o ho).param (paramDim_isParam hox)] at hox
          exact (Option.some.inj hox).symm
      rw [commonParamDim, this]
    rw [hc]
    simp only
    rw [fillParamDim_full d]
    · rfl
    · intro s hs
      obtain ⟨o, ho, rfl⟩ := mem_map.mp hs
      exact (h o ho).param

theorem POp.fill_first (p : Nat) (o : POp K) : (o.fill p).first = o.first := by
  cases o <;> simp only [POp.fill, POp.first] <;> split <;> rfl

theorem POp.fill_isCal (p : Nat) (o : POp K) : (o.fill p).isCal = o.isCal := by
  cases o <;> simp only [POp.fill, POp.isCal] <;> split <;> rfl

theorem POp.fill_paramDim (p : Nat) (o : POp K) (h : o.isParam = true) :
    (o.fill p).paramDim = some (o.paramDim.getD p) := by
  cases o with
  | np o => cases h
  | aff a => cases hp : a.p <;> simp [POp.fill, POp.paramDim, hp]
  | itp t => cases hp : t.p <;> simp [POp.fill, POp.paramDim, hp]

theorem POp.fill_isParam (p : Nat) (o : POp K) : (o.fill p).isParam = o.isParam := by
  cases o <;> rfl

/-- A constructed parametric model can be constructed from its operators. -/
theorem pconstruct_again (ops : List (POp K)) (s s' : S) (M : PModel K S) (h : PModel.construct ops s = .ok M) :
    PModel.construct M.ops s' = .ok { M with solver := M.solver.map fun _ => s' } := by
  rw [PModel.construct] at h
  split at h
  · cases h
  rename_i h1
  split at h
  · cases h
  rename_i h2
  cases h3 : pStateDimCheck ops with
  | error e => rw [h3] at h; cases h
  | ok r =>
  rw [h3] at h
  simp only at h
  cases h4 : pInputDimCheck ops with
  | error e => rw [h4] at h; cases h
  | ok m =>
  rw [h4] at h
  simp only [PModel.sync, PModel.ops, map_map] at h
  have hid : ops.map (PSlot.op ∘ fun o => (⟨o, !o.isCal⟩ : PSlot K)) = ops :=
    (map_congr_left fun _ _ => rfl).trans (map_id _)
  rw [hid] at h
  have hsol : ∀ b : Bool, (if b then none else some s : Option S).map (fun _ => s') = if b then none else some s' := by
    intro b; cases b <;> rfl
  cases h5 : commonParamDim ops none with
  | error e => rw [h5] at h; simp [finish] at h
  | ok p =>
  rw [h5] at h
  cases p with
  | none =>
    simp only [finish, Except.ok.injEq] at h
    subst h
    simp only [PModel.ops, map_map]
    rw [hid, PModel.construct, if_neg h1, if_neg h2, h3]
    simp only [h4, PModel.sync, PModel.ops, map_map]
    rw [hid, h5]
    simp only [finish, hsol]
  | some p =>
    simp only at h
    rcases h6 : fillParamDim p (ops.map fun o => (⟨o, !o.isCal⟩ : PSlot K)) with ⟨slots, x⟩
    rw [h6] at h
    cases x with
    | error e => simp [finish] at h
    | ok u =>
    have h7 := fillParamDim_ok _ _ _ h6
    simp only [finish, Except.ok.injEq] at h
    subst h
    rw [map_map] at h7
    have hops : slots.map PSlot.op = ops.map (POp.fill p) := by
      rw [h7, map_map]; exact map_congr_left fun _ _ => rfl
    have hnc : (ops.map (POp.fill p)).filter (fun o => !o.isCal) = (ops.filter fun o => !o.isCal).map (POp.fill p) := by
      rw [filter_map]
      congr 1
      exact filter_congr fun o _ => by simp [POp.fill_isCal]
    have hk : ((ops.map (POp.fill p)).filter fun o => !o.isCal).map POp.kind
        = (ops.filter fun o => !o.isCal).map POp.kind := by
      rw [hnc, map_map]
      exact map_congr_left fun o _ => POp.fill_kind p o
    have hst : pStateDimCheck (ops.map (POp.fill p)) = .ok r := by
      rw [← h3, pStateDimCheck, pStateDimCheck, filterMap_map]
      congr 1
      exact filterMap_congr fun o _ => by simp [POp.stateDim, POp.fill_first]
    have hin : pInputDimCheck (ops.map (POp.fill p)) = .ok m := by
      have e1 : (ops.map (POp.fill p)).filter (fun o => o.kind.hasInputs)
          = (ops.filter fun o => o.kind.hasInputs).map (POp.fill p) := by
        rw [filter_map]
        congr 1
        exact filter_congr fun o _ => by simp [POp.fill_kind]
      rw [← h4, pInputDimCheck, pInputDimCheck, e1, isEmpty_map, filterMap_map]
      congr 2
      exact filterMap_congr fun o _ => by simp [POp.inputDim, POp.fill_first, POp.fill_kind]
    have hcd : consistentDim (ops.filterMap POp.paramDim) = .ok (some p) := by
      rw [commonParamDim] at h5
      cases hc : consistentDim (ops.filterMap POp.paramDim) with
      | error e => rw [hc] at h5; cases h5
      | ok q => rw [hc] at h5; simpa using h5
    have hall : ∀ o ∈ ops, o.isParam = true → (o.fill p).paramDim = some p := by
      intro o ho hp
      rw [POp.fill_paramDim p o hp]
      cases hd : o.paramDim with
      | none => rfl
      | some d =>
        have := consistentDim_ok hcd d (mem_filterMap.mpr ⟨o, ho, hd⟩)
        rw [Option.some.injEq] at this
        rw [this]
        rfl
    have hcp : commonParamDim (ops.map (POp.fill p)) none = .ok (some p) := by
      rw [commonParamDim, consistentDim_const (d := p)]
      · have hne : ops.filterMap POp.paramDim ≠ [] := by
          intro h0; rw [h0] at hcd; simp [consistentDim] at hcd
        obtain ⟨d, hd⟩ := exists_mem_of_ne_nil _ hne
        obtain ⟨o, ho, hod⟩ := mem_filterMap.mp hd
        exact ne_nil_of_mem (mem_filterMap.mpr ⟨_, mem_map.mpr ⟨o, ho, rfl⟩, hall o ho (paramDim_isParam hod)⟩)
      · intro x hx
        obtain ⟨o', ho', hx⟩ := mem_filterMap.mp hx
        obtain ⟨o, ho, rfl⟩ := mem_map.mp ho'
        have hp := paramDim_isParam hx
        rw [POp.fill_isParam] at hp
        rw [hall o ho hp] at hx
        exact (Option.some.inj hx).symm
    have hsl : (ops.map (POp.fill p)).map (fun o => (⟨o, !o.isCal⟩ : PSlot K)) = slots := by
      rw [h7, map_map]
      exact map_congr_left fun o _ => by simp [POp.fill_isCal]
    have hany : (ops.map (POp.fill p)).any (fun o => o.kind.hasInputs) = ops.any fun o => o.kind.hasInputs := by
      rw [any_map]
      congr 1
      funext o
      simp [POp.fill_kind]
    simp only [PModel.ops]
    rw [hops, PModel.construct, if_neg (by simpa using h1), if_neg (by rw [hk]; exact h2), hst]
    simp only [hin, PModel.sync, PModel.ops, hsl, hany, hnc, isEmpty_map]
    rw [hops, hcp]
    simp only
    rw [fillParamDim_full p slots]
    · simp only [finish, hsol]
    · intro s1 hs1 hp1
      rw [h7] at hs1
      obtain ⟨o, ho, rfl⟩ := mem_map.mp hs1
      simp only [Function.comp_apply] at hp1 ⊢
      rw [POp.fill_isParam] at hp1
      exact hall o ho hp1

end Opinf
