import Verif.Lemmas.ParamHist
import Verif.Props.ParamModel

/-!
# C57 for parametric models: what the constructor accepts, and what the model reports
-/

namespace Opinf

open List

variable {K S : Type}

/-- A list of operators that fit together: there is one, operators to infer are of different kinds, and the state,
input and parameter dimensions that are known agree. -/
structure PConsistent (ops : List (POp K)) : Prop where
  nonempty : ops ≠ []
  distinct : ops.Pairwise fun a b => a.isCal = false → b.isCal = false → a.kind ≠ b.kind
  states : ∀ a ∈ ops, ∀ b ∈ ops, ∀ d d', a.stateDim = some d → b.stateDim = some d' → d = d'
  inputs : ∀ a ∈ ops, ∀ b ∈ ops, a.kind.hasInputs = true → b.kind.hasInputs = true →
    ∀ d d', a.inputDim = some d → b.inputDim = some d' → d = d'
  params : ∀ a ∈ ops, ∀ b ∈ ops, ∀ d d', a.paramDim = some d → b.paramDim = some d' → d = d'

/-- A parametric operator with the parameter dimension `p` if it has none of its own. -/
inductive Synced (p : Option Nat) : POp K → POp K → Prop
  | same (o : POp K) (h : o.isParam = true → o.paramDim = p) : Synced p o o
  | aff (a : Affine K) (h : a.p = none) : Synced p (.aff a) (.aff { a with p := p })
  | itp (t : Interp K) (h : t.p = none) : Synced p (.itp t) (.itp { t with p := p })

theorem distinct_iff (ops : List (POp K)) :
    ((ops.filter fun o => !o.isCal).map POp.kind).Nodup ↔
      ops.Pairwise fun a b => a.isCal = false → b.isCal = false → a.kind ≠ b.kind := by
  induction ops with
  | nil => simp
  | cons o ops ih =>
    rw [pairwise_cons, ← ih]
    cases ho : o.isCal with
    | true => simp [ho]
    | false =>
      rw [filter_cons_of_pos (by simp [ho]), map_cons, nodup_cons]
      refine and_congr_left fun _ => ?_
      constructor
      · intro h b hb _ hbc he
        exact h (mem_map.2 ⟨b, mem_filter.2 ⟨hb, by simp [hbc]⟩, he.symm⟩)
      · intro h hc
        obtain ⟨b, hb, he⟩ := mem_map.1 hc
        obtain ⟨hb, hbc⟩ := mem_filter.1 hb
        exact h b hb rfl (by simpa using hbc) he.symm

theorem pInput_iff (ops : List (POp K)) :
    ((∀ a ∈ ops, ∀ b ∈ ops, a.kind.hasInputs = true → b.kind.hasInputs = true →
        ∀ d d', a.inputDim = some d → b.inputDim = some d' → d = d') → ∃ m, pInputDimCheck ops = .ok m) ∧
    (¬ (∀ a ∈ ops, ∀ b ∈ ops, a.kind.hasInputs = true → b.kind.hasInputs = true →
        ∀ d d', a.inputDim = some d → b.inputDim = some d' → d = d') → pInputDimCheck ops = .error .dimensionality) := by
  have e : (∀ a ∈ ops, ∀ b ∈ ops, a.kind.hasInputs = true → b.kind.hasInputs = true →
        ∀ d d', a.inputDim = some d → b.inputDim = some d' → d = d') ↔
      Agree ((ops.filter fun o => o.kind.hasInputs).filterMap POp.inputDim) := by
    rw [agree_filterMap]
    constructor
    · intro h a ha b hb
      rw [mem_filter] at ha hb
      exact h a ha.1 b hb.1 ha.2 hb.2
    · intro h a ha b hb h1 h2
      exact h a (mem_filter.2 ⟨ha, h1⟩) b (mem_filter.2 ⟨hb, h2⟩)
  obtain ⟨c1, c2⟩ := consistentDim_iff ((ops.filter fun o => o.kind.hasInputs).filterMap POp.inputDim)
  rw [e]
  constructor
  · intro h
    rw [pInputDimCheck]
    split
    · exact ⟨_, rfl⟩
    · exact ⟨_, c1 h⟩
  · intro h
    rw [pInputDimCheck, if_neg, c2 h]
    intro hn
    rw [List.isEmpty_iff] at hn
    rw [hn] at h
    exact h fun d hd => by cases hd

theorem fill_synced (p : Nat) (o : POp K) (h : ∀ d, o.paramDim = some d → d = p) : Synced (some p) o (o.fill p) := by
  cases o with
  | np o => exact .same _ fun h => by cases h
  | aff a =>
    cases hp : a.p with
    | none =>
      have : (POp.aff a).fill p = .aff { a with p := some p } := by simp [POp.fill, hp]
      rw [this]
      exact .aff a hp
    | some d =>
      have : (POp.aff a).fill p = .aff a := by simp [POp.fill, hp]
      rw [this]
      exact .same _ fun _ => by rw [POp.paramDim, hp, h d hp]
  | itp t =>
    cases hp : t.p with
    | none =>
      have : (POp.itp t).fill p = .itp { t with p := some p } := by simp [POp.fill, hp]
      rw [this]
      exact .itp t hp
    | some d =>
      have : (POp.itp t).fill p = .itp t := by simp [POp.fill, hp]
      rw [this]
      exact .same _ fun _ => by rw [POp.paramDim, hp, h d hp]

/-- The constructor in full. -/
theorem pconstruct_spec (ops : List (POp K)) (solver : S) (hpos : ∀ o ∈ ops, o.paramDim ≠ some 0) :
    (PConsistent ops → ∃ r m, pStateDimCheck ops = .ok r ∧ pInputDimCheck ops = .ok m ∧
      ∃ ops', Forall₂ (Synced (ops.filterMap POp.paramDim).head?) ops ops' ∧
      PModel.construct ops solver = .ok ⟨(zip ops' ops).map fun x => ⟨x.1, !x.2.isCal⟩,
        ops.any fun o => o.kind.hasInputs, r, m, ops.all POp.isCal, if ops.all POp.isCal then none else some solver,
        (ops.filterMap POp.paramDim).head?, none⟩) ∧
    (¬ PConsistent ops → PModel.construct ops solver = .error
      (if ops = [] ∨ ¬ ((ops.filter fun o => !o.isCal).map POp.kind).Nodup then .value else .dimensionality)) := by
  have hall : (ops.filter fun o => !o.isCal).isEmpty = ops.all POp.isCal := by
    rw [Bool.eq_iff_iff, List.isEmpty_iff, filter_eq_nil_iff, all_eq_true]
    simp
  have hid : ops.map (PSlot.op ∘ fun o => (⟨o, !o.isCal⟩ : PSlot K)) = ops :=
    (map_congr_left fun _ _ => rfl).trans (map_id _)
  obtain ⟨s1, s2⟩ := consistentDim_iff (ops.filterMap POp.stateDim)
  obtain ⟨p1, p2⟩ := consistentDim_iff (ops.filterMap POp.paramDim)
  obtain ⟨i1, i2⟩ := pInput_iff ops
  rw [agree_filterMap] at s1 s2 p1 p2
  constructor
  · intro hc
    obtain ⟨m, hm⟩ := i1 hc.inputs
    have hr : pStateDimCheck ops = .ok (ops.filterMap POp.stateDim).head? := s1 hc.states
    have hp := p1 hc.params
    refine ⟨_, m, hr, hm, ?_⟩
    have hcon : PModel.construct ops solver = finish (PModel.sync ⟨ops.map fun o => ⟨o, !o.isCal⟩,
        ops.any fun o => o.kind.hasInputs, (ops.filterMap POp.stateDim).head?, m, ops.all POp.isCal,
        if ops.all POp.isCal then none else some solver, none, none⟩ none) := by
      rw [PModel.construct, if_neg (by simpa using hc.nonempty),
        if_neg (not_not.2 ((distinct_iff ops).2 hc.distinct)), hr]
      simp only [hm, hall]
    rw [hcon, PModel.sync]
    simp only [PModel.ops, map_map, hid, commonParamDim, hp]
    cases hh : (ops.filterMap POp.paramDim).head? with
    | none =>
      refine ⟨ops, ?_, ?_⟩
      · rw [forall₂_same]
        intro o ho
        refine .same _ fun _ => ?_
        rw [head?_eq_none_iff, filterMap_eq_nil_iff] at hh
        exact hh o ho
      · simp only [finish]
        congr 2
        have : zip ops ops = ops.map fun o => (o, o) := by
          clear hc hcon hall hid s1 s2 p1 p2 i1 i2 hm hr hp hh hpos
          induction ops with
          | nil => rfl
          | cons o ops ih => rw [zip_cons_cons, ih]; rfl
        rw [this, map_map]
        rfl
    | some p =>
      have hmem : p ∈ ops.filterMap POp.paramDim := mem_of_mem_head? hh
      obtain ⟨o0, ho0, hop0⟩ := mem_filterMap.1 hmem
      have hp1 : 1 ≤ p := by
        rcases Nat.eq_zero_or_pos p with h | h
        · exact absurd (h ▸ hop0) (hpos o0 ho0)
        · exact h
      refine ⟨ops.map (POp.fill p), ?_, ?_⟩
      · rw [forall₂_map_right_iff, forall₂_same]
        exact fun o ho => fill_synced p o fun d hd => hc.params o ho o0 ho0 d p hd hop0
      · simp only [fillParamDim_closed p hp1, finish, map_map]
        congr 2
        clear hc hcon hall hid s1 s2 p1 p2 i1 i2 hm hr hp hh hpos hmem ho0
        induction ops with
        | nil => rfl
        | cons o ops ih => rw [map_cons, map_cons, zip_cons_cons, map_cons, ih]; rfl
  · intro hc
    rw [PModel.construct]
    by_cases h0 : ops = []
    · subst h0; rfl
    · rw [if_neg (by simpa using h0)]
      by_cases hd : ((ops.filter fun o => !o.isCal).map POp.kind).Nodup
      · rw [if_neg (not_not.2 hd)]
        have hE : (if ops = [] ∨ ¬ ((ops.filter fun o => !o.isCal).map POp.kind).Nodup then Err.value
            else Err.dimensionality) = .dimensionality := by
          rw [if_neg]
          rintro (h | h)
          · exact h0 h
          · exact h hd
        rw [hE]
        by_cases hs : ∀ a ∈ ops, ∀ b ∈ ops, ∀ d d', a.stateDim = some d → b.stateDim = some d' → d = d'
        · have hr : pStateDimCheck ops = .ok (ops.filterMap POp.stateDim).head? := s1 hs
          rw [hr]
          simp only
          by_cases hi : ∀ a ∈ ops, ∀ b ∈ ops, a.kind.hasInputs = true → b.kind.hasInputs = true →
              ∀ d d', a.inputDim = some d → b.inputDim = some d' → d = d'
          · obtain ⟨m, hm⟩ := i1 hi
            have hp : ¬ ∀ a ∈ ops, ∀ b ∈ ops, ∀ d d', a.paramDim = some d → b.paramDim = some d' → d = d' :=
              fun hp => hc ⟨h0, (distinct_iff ops).1 hd, hs, hi, hp⟩
            rw [hm]
            simp only [PModel.sync, PModel.ops, map_map, hid, commonParamDim, p2 hp, finish]
          · rw [i2 hi]
        · have hr : pStateDimCheck ops = .error .dimensionality := s2 hs
          rw [hr]
      · rw [if_pos hd, if_pos (Or.inr hd)]

/-- **C57 (parametric).** The constructor of a parametric model accepts exactly the consistent lists of operators.
It raises `ValueError` for an empty list or operators to infer of the same kind, and `DimensionalityError` for
dimensions that do not agree. -/
theorem C57_parametric_accepts (ops : List (POp K)) (solver : S) (hpos : ∀ o ∈ ops, o.paramDim ≠ some 0) :
    ((∃ M, PModel.construct ops solver = .ok M) ↔ PConsistent ops) ∧
    (¬ PConsistent ops → ops = [] ∨ ¬ (ops.Pairwise fun a b => a.isCal = false → b.isCal = false → a.kind ≠ b.kind) →
      PModel.construct ops solver = .error .value) ∧
    (¬ PConsistent ops → ops ≠ [] → (ops.Pairwise fun a b => a.isCal = false → b.isCal = false → a.kind ≠ b.kind) →
      PModel.construct ops solver = .error .dimensionality) := by
  obtain ⟨h1, h2⟩ := pconstruct_spec ops solver hpos
  refine ⟨⟨?_, ?_⟩, ?_, ?_⟩
  · rintro ⟨M, hM⟩
    by_contra hc
    rw [h2 hc] at hM
    cases hM
  · intro hc
    obtain ⟨_, _, _, _, _, _, h⟩ := h1 hc
    exact ⟨_, h⟩
  · intro hc h
    rw [h2 hc, if_pos]
    rwa [distinct_iff]
  · intro hc h0 h
    rw [h2 hc, if_neg]
    rw [distinct_iff]
    rintro (h' | h')
    · exact h0 h'
    · exact h' h

/-- **C57 (parametric).** What the model reports: its operators are the given ones, where parametric operators without
a parameter dimension get the common one; those without entries are to be inferred, and there is a solver if there are
any; the dimensions are those of every operator that has one (`input_dimension` is 0 without input operators). -/
theorem C57_parametric_reports (ops : List (POp K)) (solver : S) (hpos : ∀ o ∈ ops, o.paramDim ≠ some 0)
    (M : PModel K S) (hM : PModel.construct ops solver = .ok M) :
    Forall₂ (Synced M.p) ops M.ops ∧
    (∀ s ∈ M.slots, s.infer = !s.op.isCal) ∧
    (∀ o ∈ ops, ∀ d, o.stateDim = some d → M.r = some d) ∧ ((∀ o ∈ ops, o.stateDim = none) → M.r = none) ∧
    (∀ o ∈ ops, o.kind.hasInputs = true → ∀ d, o.inputDim = some d → M.m = some d) ∧
    ((∀ o ∈ ops, o.kind.hasInputs = false) → M.m = some 0) ∧
    (∀ o ∈ ops, ∀ d, o.paramDim = some d → M.p = some d) ∧ ((∀ o ∈ ops, o.paramDim = none) → M.p = none) ∧
    (M.hasInputs = true ↔ ∃ o ∈ ops, o.kind.hasInputs = true) ∧
    (M.intrusive = true ↔ ∀ o ∈ ops, o.isCal = true) ∧
    M.solver = if M.intrusive then none else some solver := by
  obtain ⟨h1, h2⟩ := pconstruct_spec ops solver hpos
  have hc : PConsistent ops := ((C57_parametric_accepts ops solver hpos).1).1 ⟨M, hM⟩
  obtain ⟨r, m, hr, hm, ops', ho, h⟩ := h1 hc
  rw [hM] at h
  have h := Except.ok.inj h
  have hp := consistentDim_ok ((consistentDim_iff (ops.filterMap POp.paramDim)).1
    ((agree_filterMap _ _).2 hc.params))
  subst h
  have hl := ho.length_eq
  refine ⟨?_, ?_, ?_, ?_, ?_, ?_, ?_, ?_, ?_, ?_, rfl⟩
  · have : (((zip ops' ops).map fun x => (⟨x.1, !x.2.isCal⟩ : PSlot K)).map PSlot.op) = ops' := by
      rw [map_map]
      exact (map_congr_left fun _ _ => rfl).trans (map_fst_zip (by omega))
    simp only [PModel.ops]
    rw [this]
    exact ho
  · intro s hs
    obtain ⟨⟨a, b⟩, hx, rfl⟩ := mem_map.1 hs
    have hba : Synced (ops.filterMap POp.paramDim).head? b a := by
      refine (forall₂_iff_zip.1 ho).2 ?_
      rw [← zip_swap ops' ops]
      exact mem_map.2 ⟨(a, b), hx, rfl⟩
    cases hba <;> rfl
  · intro o hoo d hd
    exact consistentDim_ok hr d (mem_filterMap.2 ⟨o, hoo, hd⟩)
  · intro h0
    have : ops.filterMap POp.stateDim = [] := filterMap_eq_nil_iff.2 h0
    rw [pStateDimCheck, this] at hr
    exact (Except.ok.inj hr).symm
  · intro o hoo hi d hd
    rw [pInputDimCheck, if_neg] at hm
    · exact consistentDim_ok hm d (mem_filterMap.2 ⟨o, mem_filter.2 ⟨hoo, hi⟩, hd⟩)
    · intro he
      rw [List.isEmpty_iff, filter_eq_nil_iff] at he
      exact he o hoo hi
  · intro h0
    rw [pInputDimCheck, if_pos] at hm
    · exact (Except.ok.inj hm).symm
    · rw [List.isEmpty_iff, filter_eq_nil_iff]
      intro o hoo
      simp [h0 o hoo]
  · intro o hoo d hd
    exact hp d (mem_filterMap.2 ⟨o, hoo, hd⟩)
  · intro h0
    have : ops.filterMap POp.paramDim = [] := filterMap_eq_nil_iff.2 h0
    simp only [this]
    rfl
  · simp
  · simp

/-- A known linear operator interpolated over pairs of parameters is not consistent with one over numbers; without it,
the affine operator to infer gets the parameter dimension. -/
example : PConsistent [POp.itp pExItp, .aff ⟨.const, 2, fun mu => .ok (.vec (1 :: mu.toList)), none, none⟩] ∧
    (∀ o ∈ [POp.itp pExItp, .aff ⟨.const, 2, fun mu => .ok (.vec (1 :: mu.toList)), none, none⟩],
      o.paramDim ≠ some 0) ∧
    (PModel.construct [POp.itp pExItp, .aff ⟨.const, 2, fun mu => .ok (.vec (1 :: mu.toList)), none, none⟩] ()).map
      (fun M => (M.r, M.m, M.p, M.ops.map POp.paramDim)) = .ok (some 2, some 0, some 1, [some 1, some 1]) ∧
    (PModel.construct [POp.itp pExItp, .aff ⟨.const, 2, fun mu => .ok (.vec (1 :: mu.toList)), some 2, none⟩] ()).map
      (fun M => M.p) = .error .dimensionality := by
  refine ⟨?_, ?_, by decide +kernel, by decide +kernel⟩
  · refine ⟨by simp, by simp [pExItp, POp.isCal], ?_, ?_, ?_⟩
    · simp [pExItp, POp.stateDim, POp.first]
    · simp [pExItp, POp.kind, OpKind.hasInputs]
    · simp [pExItp, POp.paramDim]
  · simp [pExItp, POp.paramDim]

end Opinf
