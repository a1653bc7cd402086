import Verif.Props.ParamAgain
import Verif.Lemmas.Shared

/-!
# C127: which data a parametric model with nothing known accepts for training

Specification: the shapes of parameters, states, left-hand sides and inputs.
-/

namespace Opinf

open List

variable {K S : Type}

/-- Parameter values of dimension `d` and, for each of them, as many `r`-dimensional states as `r`-dimensional left-hand
sides and, if the model has inputs, as many `m`-dimensional inputs. -/
structure PFitCall.Shaped (c : PFitCall K) (hasInputs hasParams : Bool) (r m d : Nat) : Prop where
  params : c.params ≠ []
  sameShape : ∃ s : Option Nat, (∀ mu ∈ c.params, mu.shape = s) ∧ s.getD 1 = d
  pos : hasParams = true → 0 < d
  stateCount : c.states.length = c.params.length
  stateDim : ∀ Q ∈ c.states, (atleast2d Q).1 = r
  lhsCount : c.lhs.length = c.params.length
  lhsDim : ∀ Z ∈ c.lhs, (atleast2d Z).1 = r
  lhsSamples : Forall₂ (fun Q Z => (atleast2d Z).2.length = (atleast2d Q).2.length) c.states c.lhs
  inputs : hasInputs = true → ∃ us, c.inputs = some us ∧ (∀ U ∈ us, (atleast2d U).1 = m) ∧
    Forall₂ (fun Q U => (atleast2d U).2.length = (atleast2d Q).2.length) c.states us
  noInputs : hasInputs = false → m = 0

/-- The operators of a model after clearing, all of which are to be learned. -/
def PModel.blanked (M : PModel K S) : PModel K S :=
  { M with
    slots := M.slots.map fun s => { s with op := s.op.clear }
    r := none
    m := if M.hasInputs then none else some 0 }

theorem clear_stateDim (o : POp K) : o.clear.stateDim = none := by cases o <;> rfl

theorem clear_isCal (o : POp K) : o.clear.isCal = false := by cases o <;> rfl

theorem clear_inputDim (o : POp K) (h : o.kind.hasInputs = true) : o.clear.inputDim = none := by
  cases o <;> (simp only [POp.kind] at h; simp [POp.inputDim, POp.clear, POp.first, Op.clear, Affine.clear, Interp.clear,
    Op.inputDim, POp.kind]; try (intro hk; simp_all))

theorem clear_all (M : PModel K S) (hall : ∀ s ∈ M.slots, s.infer = true)
    (hin : M.hasInputs = M.ops.any fun o => o.kind.hasInputs) : M.clear = (M.blanked, .ok ()) := by
  have hs : (M.slots.map fun s => if s.infer then { s with op := s.op.clear } else s) =
      M.slots.map fun s => { s with op := s.op.clear } :=
    map_congr_left fun s hs => by rw [if_pos (hall s hs)]
  have hops : ∀ o ∈ PModel.ops { M with slots := M.slots.map fun s => { s with op := s.op.clear } },
      ∃ p ∈ M.ops, o = p.clear := by
    intro o ho
    obtain ⟨s, hs, rfl⟩ := mem_map.1 ho
    obtain ⟨t, ht, rfl⟩ := mem_map.1 hs
    exact ⟨t.op, mem_map.2 ⟨t, ht, rfl⟩, rfl⟩
  have h1 : pStateDimCheck (PModel.ops { M with slots := M.slots.map fun s => { s with op := s.op.clear } }) = .ok none := by
    rw [pStateDimCheck]
    have : filterMap POp.stateDim (PModel.ops { M with slots := M.slots.map fun s => { s with op := s.op.clear } }) = [] := by
      rw [filterMap_eq_nil_iff]
      intro o ho
      obtain ⟨p, -, rfl⟩ := hops o ho
      exact clear_stateDim p
    rw [this]
    rfl
  have h2 : pInputDimCheck (PModel.ops { M with slots := M.slots.map fun s => { s with op := s.op.clear } }) =
      .ok (if M.hasInputs then none else some 0) := by
    rw [pInputDimCheck]
    by_cases hh : M.hasInputs = false
    · rw [hh] at hin
      have : filter (fun o : POp K => o.kind.hasInputs)
          (PModel.ops { M with slots := M.slots.map fun s => { s with op := s.op.clear } }) = [] := by
        rw [filter_eq_nil_iff]
        intro o ho
        obtain ⟨p, hp, rfl⟩ := hops o ho
        rw [POp.clear_kind]
        exact any_eq_false.1 hin.symm p hp
      rw [if_pos (by rw [this]; rfl), hh]
      rfl
    · rw [Bool.not_eq_false] at hh
      rw [hh] at hin
      obtain ⟨p, hp, hpi⟩ := any_eq_true.1 hin.symm
      obtain ⟨s, hs', rfl⟩ := mem_map.1 hp
      rw [if_neg]
      · have : filterMap POp.inputDim (filter (fun o : POp K => o.kind.hasInputs)
            (PModel.ops { M with slots := M.slots.map fun s => { s with op := s.op.clear } })) = [] := by
          rw [filterMap_eq_nil_iff]
          intro o ho
          obtain ⟨q, -, rfl⟩ := hops o (mem_filter.1 ho).1
          exact clear_inputDim q (by have := (mem_filter.1 ho).2; rwa [POp.clear_kind] at this)
        rw [this, hh]
        rfl
      · rw [List.isEmpty_iff, filter_eq_nil_iff]
        intro hno
        refine hno s.op.clear (mem_map.2 ⟨{ s with op := s.op.clear }, mem_map.2 ⟨s, hs', rfl⟩, rfl⟩) ?_
        rw [POp.clear_kind]
        exact hpi
  rw [PModel.clear]
  simp only [hs, h1, h2]
  rfl

theorem fill_all (d : Nat) (hd : 0 < d) (slots : List (PSlot K)) (h : ∀ s ∈ slots, s.op.paramDim = none) :
    fillParamDim d slots = (slots.map fun s => { s with op := s.op.fill d }, .ok ()) := by
  have e : ∃ out, fillParamDim d slots = (out, .ok ()) := by
    induction slots with
    | nil => exact ⟨_, rfl⟩
    | cons s ss ih =>
      obtain ⟨out, hout⟩ := ih fun t ht => h t (mem_cons_of_mem _ ht)
      rw [fillParamDim, hout]
      have hp := h s mem_cons_self
      split
      · cases hop : s.op with
        | np o => exact ⟨_, rfl⟩
        | aff a =>
          rw [hop] at hp
          have hp : a.p = none := hp
          simp only [POp.setParamDim, Opinf.setParamDim, hp, Option.isSome_none, Bool.false_eq_true, if_false,
            if_neg (by omega : ¬ d < 1)]
          exact ⟨_, rfl⟩
        | itp t =>
          rw [hop] at hp
          have hp : t.p = none := hp
          simp only [POp.setParamDim, Opinf.setParamDim, hp, Option.isSome_none, Bool.false_eq_true, if_false,
            if_neg (by omega : ¬ d < 1)]
          exact ⟨_, rfl⟩
      · exact ⟨_, rfl⟩
  obtain ⟨out, hout⟩ := e
  rw [hout, fillParamDim_ok d slots out hout]

theorem fill_none_param (d : Nat) (slots : List (PSlot K)) (h : ∀ s ∈ slots, s.op.isParam = false) :
    fillParamDim d slots = (slots.map fun s => { s with op := s.op.fill d }, .ok ()) := by
  have e : ∃ out, fillParamDim d slots = (out, .ok ()) := by
    induction slots with
    | nil => exact ⟨_, rfl⟩
    | cons s ss ih =>
      obtain ⟨out, hout⟩ := ih fun t ht => h t (mem_cons_of_mem _ ht)
      rw [fillParamDim, hout, h s mem_cons_self]
      exact ⟨_, rfl⟩
  obtain ⟨out, hout⟩ := e
  rw [hout, fillParamDim_ok d slots out hout]

theorem fill_zero_fails (slots : List (PSlot K)) (h : ∀ s ∈ slots, s.op.paramDim = none)
    (hp : ∃ s ∈ slots, s.op.isParam = true) : ∃ out, fillParamDim 0 slots = (out, .error .value) := by
  induction slots with
  | nil => obtain ⟨s, hs, -⟩ := hp; cases hs
  | cons s ss ih =>
    have hn := h s mem_cons_self
    rw [fillParamDim]
    cases hop : s.op with
    | np o =>
      obtain ⟨out, hout⟩ := ih (fun t ht => h t (mem_cons_of_mem _ ht)) (by
        obtain ⟨t, ht, hpt⟩ := hp
        rcases mem_cons.1 ht with rfl | ht
        · rw [hop] at hpt; cases hpt
        · exact ⟨t, ht, hpt⟩)
      rw [hout]
      exact ⟨_, rfl⟩
    | aff a =>
      rw [hop] at hn
      have hn : a.p = none := hn
      refine ⟨s :: ss, ?_⟩
      simp [POp.isParam, POp.paramDim, hn, POp.setParamDim, Opinf.setParamDim]
    | itp t =>
      rw [hop] at hn
      have hn : t.p = none := hn
      refine ⟨s :: ss, ?_⟩
      simp [POp.isParam, POp.paramDim, hn, POp.setParamDim, Opinf.setParamDim]

theorem checkSets_iff {n : Nat} {r : Option Nat} {states lhs : List (Nat × List (List K))} :
    checkSets n r states lhs = .ok () ↔
      states.length = n ∧ (∀ Q ∈ states, some Q.1 = r) ∧ lhs.length = n ∧ (∀ L ∈ lhs, some L.1 = r) ∧
      ∀ x ∈ zip states lhs, x.2.2.length = x.1.2.length := by
  refine ⟨checkSets_ok, fun ⟨h1, h2, h3, h4, h5⟩ => ?_⟩
  unfold checkSets
  rw [if_neg (by omega), if_neg, if_neg (by omega), if_neg, if_neg]
  all_goals simp only [any_eq_true, decide_eq_true_eq, not_exists, not_and, not_not]; assumption

theorem checkInputSets_iff {n : Nat} {m : Option Nat} {states inputs : List (Nat × List (List K))} :
    checkInputSets n m states inputs = .ok () ↔ inputs.length = n ∧ (∀ U ∈ inputs, some U.1 = m) ∧
      ∀ x ∈ zip states inputs, x.2.2.length = x.1.2.length := by
  refine ⟨checkInputSets_ok, fun ⟨h1, h2, h3⟩ => ?_⟩
  unfold checkInputSets
  rw [if_neg (by omega), if_neg, if_neg]
  all_goals simp only [any_eq_true, decide_eq_true_eq, not_exists, not_and, not_not]; assumption

theorem pSubKnown_all [CommRing K] (lib : ItpLib K) (data : List (PSet K)) (slots : List (PSlot K))
    (h : ∀ s ∈ slots, s.infer = true) (Z : List (List (List K))) : pSubKnown lib data slots Z = .ok Z := by
  induction slots with
  | nil => rfl
  | cons s ss ih =>
    rw [pSubKnown, if_pos (h s mem_cons_self)]
    exact ih fun t ht => h t (mem_cons_of_mem _ ht)

theorem zip_forall₂ {A B : List (Arg K)} (hl : B.length = A.length) :
    (∀ x ∈ zip (A.map atleast2d) (B.map atleast2d), x.2.2.length = x.1.2.length) ↔
      Forall₂ (fun Q Z => (atleast2d Z).2.length = (atleast2d Q).2.length) A B := by
  induction A generalizing B with
  | nil => cases B with
    | nil => simp
    | cons b B => simp at hl
  | cons a A ih => cases B with
    | nil => simp at hl
    | cons b B =>
      simp only [length_cons, Nat.add_right_cancel_iff] at hl
      rw [forall₂_cons, ← ih hl]
      simp

theorem paramsDim_iff (ps : List (Par K)) (hne : ps ≠ []) (d : Nat) :
    paramsDim ps = .ok d ↔ ∃ s : Option Nat, (∀ mu ∈ ps, mu.shape = s) ∧ s.getD 1 = d := by
  cases ps with
  | nil => exact absurd rfl hne
  | cons mu ps =>
    have hd : ∀ x : Par K, x.shape.getD 1 = x.dim := fun x => by cases x <;> rfl
    rw [paramsDim]
    by_cases h : ((mu :: ps).any fun x => x.shape ≠ mu.shape) = true
    · rw [if_pos h]
      refine ⟨fun h => (by cases h), fun ⟨s, hs, _⟩ => ?_⟩
      obtain ⟨x, hx, hn⟩ := any_eq_true.1 h
      simp only [decide_eq_true_eq, ne_eq] at hn
      exact absurd ((hs x hx).trans (hs mu mem_cons_self).symm) hn
    · rw [if_neg h]
      refine ⟨fun h' => ⟨mu.shape, fun x hx => ?_, by rw [hd]; exact Except.ok.inj h'⟩, fun ⟨s, hs, e⟩ => ?_⟩
      · by_contra hn
        exact h (any_eq_true.2 ⟨x, hx, by simpa using hn⟩)
      · rw [← hs mu mem_cons_self, hd] at e
        rw [e]

/-- Clearing and synchronising. -/
theorem sync_all (M : PModel K S) (d : Nat) :
    (∃ N, M.blanked.sync (some d) = (N, .ok ())) ↔ ((M.ops.any POp.isParam) = true → 0 < d) := by
  have hn : ∀ s ∈ M.blanked.slots, s.op.paramDim = none := by
    intro s hs
    obtain ⟨t, -, rfl⟩ := mem_map.1 hs
    exact clear_paramDim _
  have hpar : ∀ o : POp K, o.clear.isParam = o.isParam := fun o => by cases o <;> rfl
  have hc : commonParamDim M.blanked.ops (some d) = .ok (some d) := by
    have : filterMap POp.paramDim M.blanked.ops = [] := by
      rw [filterMap_eq_nil_iff]
      intro o ho
      obtain ⟨s, hs, rfl⟩ := mem_map.1 ho
      exact hn s hs
    rw [commonParamDim, this]
    simp [consistentDim]
  rw [PModel.sync, hc]
  simp only
  rcases Nat.eq_zero_or_pos d with rfl | hd
  · by_cases hp : M.ops.any POp.isParam = true
    · obtain ⟨o, ho, hpo⟩ := any_eq_true.1 hp
      obtain ⟨s, hs, rfl⟩ := mem_map.1 ho
      obtain ⟨out, hout⟩ := fill_zero_fails M.blanked.slots hn
        ⟨{ s with op := s.op.clear }, mem_map.2 ⟨s, hs, rfl⟩, by rw [hpar]; exact hpo⟩
      rw [hout]
      refine ⟨fun ⟨N, h⟩ => (by cases h), fun h => absurd (h hp) (by omega)⟩
    · rw [fill_none_param 0 M.blanked.slots (fun s hs => by
        obtain ⟨t, ht, rfl⟩ := mem_map.1 hs
        have := any_eq_false.1 (by simpa using hp : M.ops.any POp.isParam = false) t.op (mem_map.2 ⟨t, ht, rfl⟩)
        rw [hpar]
        simpa using this)]
      exact ⟨fun _ h => absurd h hp, fun _ => ⟨_, rfl⟩⟩
  · rw [fill_all d hd M.blanked.slots hn]
    exact ⟨fun _ _ => hd, fun _ => ⟨_, rfl⟩⟩

/-- **C127.** A parametric model all of whose operators are to be learned accepts exactly the training data of consistent
shapes, whatever it was trained with before, and takes its dimensions from them. -/
theorem C127_accepts [CommRing K] (lib : ItpLib K) (M : PModel K S) (hall : ∀ s ∈ M.slots, s.infer = true)
    (hin : M.hasInputs = M.ops.any fun o => o.kind.hasInputs) (c : PFitCall K) (r m d : Nat) :
    (∃ N x, M.processFitArgs lib c.params c.states c.lhs c.inputs = (N, .ok x) ∧
      N.r = some r ∧ N.m = some m ∧ N.p = some d) ↔ c.Shaped M.hasInputs (M.ops.any POp.isParam) r m d := by
  have hnc : ∀ d' o, o ∈ PModel.ops { M.blanked with
      slots := M.blanked.slots.map fun s => { s with op := s.op.fill d' }, p := some d' } → o.isCal = false := by
    intro d' o ho
    obtain ⟨s, hs, rfl⟩ := mem_map.1 ho
    obtain ⟨t, ht, rfl⟩ := mem_map.1 hs
    obtain ⟨v, hv, rfl⟩ := mem_map.1 ht
    cases hop : v.op <;> simp only [hop, POp.clear, POp.fill] <;> (try split) <;> rfl
  have hinf : ∀ d' s, s ∈ (M.blanked.slots.map fun s => { s with op := s.op.fill d' } : List (PSlot K)) →
      s.infer = true := by
    intro d' s hs
    obtain ⟨t, ht, rfl⟩ := mem_map.1 hs
    obtain ⟨v, hv, rfl⟩ := mem_map.1 ht
    exact hall v hv
  constructor
  · rintro ⟨N, x, h, hr, hm, hp⟩
    unfold PModel.processFitArgs at h
    rw [clear_all M hall hin] at h
    simp only at h
    split at h
    · cases h
    rename_i d' hd
    split at h
    · cases h
    rename_i Mb hsync
    obtain ⟨b1, -⟩ := sync_ok _ _ _ hsync
    have hpos := (sync_all M d').1 ⟨Mb, hsync⟩
    split at h
    · cases h
    rename_i Mc hlearn
    have c1 := plearnState_ok _ _ _ hlearn
    split at h
    · cases h
    rename_i hcheck
    split at h
    · cases h
    rename_i Md U hinp
    split at h
    · cases h
    rename_i Z' hsub
    simp only [Prod.mk.injEq, Except.ok.injEq] at h
    obtain ⟨rfl, rfl⟩ := h
    obtain ⟨e1, e2, e3⟩ := processInputs_ok _ _ _ _ _ _ hinp
    obtain ⟨f1, f2, f3, f4, f5⟩ := checkSets_ok hcheck
    have hcr : Mc.r = some r := by rw [e1] at hr; exact hr
    have hcp : Mc.p = some d := by rw [e1] at hp; exact hp
    obtain rfl : d' = d := by
      rw [c1, b1] at hcp
      exact Option.some.inj hcp
    have hci : Mc.hasInputs = M.hasInputs := by rw [c1, b1]; rfl
    have hne : c.params ≠ [] := by
      intro h0
      rw [h0, length_nil, length_map] at f1
      rw [length_eq_zero_iff.1 f1] at hlearn
      unfold PModel.learnStateDim at hlearn
      have : Mb.r = none := by rw [b1]; rfl
      rw [this] at hlearn
      cases hlearn
    have k1 : c.states.length = c.params.length := by simpa using f1
    have k2 : c.lhs.length = c.params.length := by simpa using f3
    refine ⟨hne, (paramsDim_iff _ hne _).1 hd, hpos, k1, fun Q hQ => ?_, k2, fun Z hZ => ?_,
      (zip_forall₂ (by rw [k1, k2])).1 f5, fun hi => ?_, fun hi => ?_⟩
    · exact Option.some.inj ((f2 _ (mem_map_of_mem hQ)).trans hcr)
    · exact Option.some.inj ((f4 _ (mem_map_of_mem hZ)).trans hcr)
    · obtain ⟨us, g1, -, g3, g4, g5⟩ := e2 (hci.trans hi)
      exact ⟨us, g1, fun u hu => Option.some.inj ((g4 u hu).trans hm), (zip_forall₂ (by rw [k1, g3])).1 g5⟩
    · obtain ⟨-, g⟩ := e3 (hci.trans hi)
      rw [g, c1, b1] at hm
      simp only [PModel.blanked, hi] at hm
      exact (Option.some.inj hm).symm
  · rintro ⟨hne, hs, hpos, k1, k2, k3, k4, k5, k6, k7⟩
    obtain ⟨Mb, hsync⟩ := (sync_all M d).2 hpos
    obtain ⟨b1, -⟩ := sync_ok _ _ _ hsync
    obtain ⟨Q, Qs, hQ⟩ : ∃ Q Qs, c.states = Q :: Qs := by
      cases hc : c.states with
      | nil => rw [hc] at k1; exact absurd (length_eq_zero_iff.1 k1.symm) hne
      | cons Q Qs => exact ⟨Q, Qs, rfl⟩
    have hlearn : Mb.learnStateDim (c.states.map atleast2d) = ({ Mb with r := some r }, .ok ()) := by
      unfold PModel.learnStateDim
      have : Mb.r = none := by rw [b1]; rfl
      rw [this, hQ, map_cons]
      simp only
      rw [PModel.setStateDim, if_neg, k2 Q (by rw [hQ]; exact mem_cons_self)]
      intro h
      obtain ⟨o, ho, hc⟩ := any_eq_true.1 h
      rw [b1] at ho
      rw [hnc d o ho] at hc
      cases hc
    have hcheck : checkSets c.params.length (some r) (c.states.map atleast2d) (c.lhs.map atleast2d) = .ok () := by
      rw [checkSets_iff]
      refine ⟨by simpa using k1, fun X hX => ?_, by simpa using k3, fun X hX => ?_,
        (zip_forall₂ (by rw [k1, k3])).2 k5⟩
      · obtain ⟨Y, hY, rfl⟩ := mem_map.1 hX
        rw [k2 Y hY]
      · obtain ⟨Y, hY, rfl⟩ := mem_map.1 hX
        rw [k4 Y hY]
    have hinp : ∃ U, PModel.processInputs { Mb with r := some r } c.params.length (c.states.map atleast2d) c.inputs =
        ({ Mb with r := some r, m := some m }, .ok U) := by
      unfold PModel.processInputs
      by_cases hi : M.hasInputs = true
      · obtain ⟨us, g1, g2, g3⟩ := k6 hi
        have hl : us.length = c.params.length := by rw [← g3.length_eq, k1]
        obtain ⟨u, us', hu⟩ : ∃ u us', us = u :: us' := by
          cases hc : us with
          | nil => rw [hc] at hl; exact absurd (length_eq_zero_iff.1 hl.symm) hne
          | cons u us' => exact ⟨u, us', rfl⟩
        have hbi : Mb.hasInputs = true := by rw [b1]; exact hi
        have hbm : Mb.m = none := by rw [b1]; simp [PModel.blanked, hi]
        have hlin : PModel.learnInputDim { Mb with r := some r } (us.map atleast2d) =
            ({ Mb with r := some r, m := some m }, .ok ()) := by
          unfold PModel.learnInputDim
          rw [if_pos (by simp [hbm]), hu, map_cons]
          simp only
          rw [PModel.setInputDim, if_neg (by simp [hbi]), if_neg, g2 u (by rw [hu]; exact mem_cons_self)]
          intro h
          obtain ⟨o, ho, hc⟩ := any_eq_true.1 h
          have ho : o ∈ Mb.ops := ho
          rw [b1] at ho
          rw [hnc d o ho, Bool.and_false, Bool.false_and] at hc
          cases hc
        rw [if_pos hbi, g1]
        simp only [hlin]
        rw [checkInputSets_iff.2 ⟨by simpa using hl, fun X hX => by
          obtain ⟨Y, hY, rfl⟩ := mem_map.1 hX
          rw [g2 Y hY], (zip_forall₂ (by rw [hl, k1])).2 g3⟩]
        exact ⟨_, rfl⟩
      · have hbi : ¬ Mb.hasInputs = true := by rw [b1]; exact hi
        have hbm : Mb.m = some 0 := by rw [b1]; simp [PModel.blanked, hi]
        rw [if_neg hbi]
        refine ⟨replicate c.params.length none, ?_⟩
        rw [k7 (by simpa using hi), ← hbm]
    obtain ⟨U, hU⟩ := hinp
    refine ⟨{ Mb with r := some r, m := some m }, (makeSets c.params (c.states.map atleast2d) U,
      c.lhs.map fun L => (atleast2d L).2), ?_, rfl, rfl, by rw [b1]⟩
    unfold PModel.processFitArgs
    rw [clear_all M hall hin]
    simp only
    rw [(paramsDim_iff _ hne d).2 hs]
    simp only [hsync, hlearn, hcheck, hU]
    rw [pSubKnown_all]
    intro s hs
    have hs : s ∈ Mb.slots := hs
    rw [b1] at hs
    exact hinf d s hs

/-- No operator has entries. -/
def PModel.Unset (M : PModel K S) : Prop := ∀ o ∈ M.ops, o.isCal = false

theorem PModel.Unset.of_slots {M N : PModel K S} (h : M.Unset) (hs : N.slots = M.slots) : N.Unset := by
  intro o ho
  rw [PModel.ops, hs] at ho
  exact h o ho

theorem fillParamDim_unset (d : Nat) (ss : List (PSlot K)) (h : ∀ s ∈ ss, s.op.isCal = false) :
    ∀ s ∈ (fillParamDim d ss).1, s.op.isCal = false := by
  induction ss with
  | nil => exact h
  | cons s ss ih =>
    have ih := ih fun t ht => h t (mem_cons_of_mem _ ht)
    have h0 := h s mem_cons_self
    unfold fillParamDim
    split
    · split
      · exact h
      · rename_i o ho
        intro t ht
        rcases mem_cons.1 ht with rfl | ht
        · cases hop : s.op with
          | np p => rw [hop] at ho h0; cases ho; exact h0
          | aff a =>
            rw [hop] at ho h0
            simp only [POp.setParamDim] at ho
            split at ho
            · cases ho
            · cases ho; exact h0
          | itp a =>
            rw [hop] at ho h0
            simp only [POp.setParamDim] at ho
            split at ho
            · cases ho
            · cases ho; exact h0
        · exact ih t ht
    · intro t ht
      rcases mem_cons.1 ht with rfl | ht
      · exact h0
      · exact ih t ht

theorem sync_unset (M : PModel K S) (d : Option Nat) (h : M.Unset) : (M.sync d).1.Unset := by
  unfold PModel.sync
  split
  · exact h
  · exact h.of_slots rfl
  · rename_i p _
    have k := fillParamDim_unset p M.slots fun s hs => h s.op (mem_map.2 ⟨s, hs, rfl⟩)
    have k' : ∀ N : PModel K S, N.slots = (fillParamDim p M.slots).1 → N.Unset := by
      intro N hN o ho
      obtain ⟨s, hs, rfl⟩ := mem_map.1 ho
      rw [hN] at hs
      exact k s hs
    split
    · rename_i h2; rw [h2] at k'; exact k' _ rfl
    · rename_i h2; rw [h2] at k'; exact k' _ rfl

/-- After checking the training data no operator has entries and, if the data were accepted, all dimensions are known. -/
theorem process_unset [CommRing K] (lib : ItpLib K) (M : PModel K S) (hall : ∀ s ∈ M.slots, s.infer = true)
    (hin : M.hasInputs = M.ops.any fun o => o.kind.hasInputs) (c : PFitCall K) :
    (M.processFitArgs lib c.params c.states c.lhs c.inputs).1.Unset ∧
    ∀ N x, M.processFitArgs lib c.params c.states c.lhs c.inputs = (N, .ok x) →
      ∃ r m d, N.r = some r ∧ N.m = some m ∧ N.p = some d := by
  have hb : M.blanked.Unset := by
    intro o ho
    obtain ⟨s, hs, rfl⟩ := mem_map.1 ho
    obtain ⟨t, -, rfl⟩ := mem_map.1 hs
    exact clear_isCal _
  unfold PModel.processFitArgs
  rw [clear_all M hall hin]
  simp only
  split
  · exact ⟨hb, fun N x h => by cases h⟩
  rename_i d hd
  have h2 := sync_unset M.blanked (some d) hb
  split
  · rename_i h; rw [h] at h2; exact ⟨h2, fun N x h => by cases h⟩
  rename_i Mb hsync
  rw [hsync] at h2
  obtain ⟨b1, -⟩ := sync_ok _ _ _ hsync
  have h3 := h2.of_slots (Mb.learnStateDim_slots (c.states.map atleast2d))
  split
  · rename_i h; rw [h] at h3; exact ⟨h3, fun N x h => by cases h⟩
  rename_i Mc hlearn
  rw [hlearn] at h3
  have c1 := plearnState_ok _ _ _ hlearn
  split
  · exact ⟨h3, fun N x h => by cases h⟩
  have h4 := h3.of_slots (Mc.processInputs_slots c.params.length (c.states.map atleast2d) c.inputs)
  split
  · rename_i h; rw [h] at h4; exact ⟨h4, fun N x h => by cases h⟩
  rename_i Md U hinp
  rw [hinp] at h4
  split
  · exact ⟨h4, fun N x h => by cases h⟩
  refine ⟨h4, fun N x h => ?_⟩
  simp only [Prod.mk.injEq] at h
  obtain ⟨rfl, -⟩ := h
  obtain ⟨e1, e2, e3⟩ := processInputs_ok _ _ _ _ _ _ hinp
  obtain ⟨r, hr⟩ : ∃ r, Mc.r = some r := by
    unfold PModel.learnStateDim at hlearn
    have : Mb.r = none := by rw [b1]; rfl
    rw [this] at hlearn
    simp only at hlearn
    split at hlearn
    · cases hlearn
    · rw [PModel.setStateDim] at hlearn
      split at hlearn
      · cases hlearn
      · cases hlearn; exact ⟨_, rfl⟩
  obtain ⟨m, hm⟩ : ∃ m, Md.m = some m := by
    by_cases hi : Mc.hasInputs = true
    · unfold PModel.processInputs at hinp
      rw [if_pos hi] at hinp
      split at hinp
      · cases hinp
      split at hinp
      · cases hinp
      rename_i Me hl
      split at hinp
      · cases hinp
      cases hinp
      unfold PModel.learnInputDim at hl
      split at hl
      · split at hl
        · cases hl
        · unfold PModel.setInputDim at hl
          split at hl
          · cases hl
          · split at hl
            · cases hl
            · cases hl; exact ⟨_, rfl⟩
      · rename_i hz
        cases hl
        cases hm : Mc.m with
        | none => rw [hm] at hz; exact absurd rfl hz
        | some m => exact ⟨m, rfl⟩
    · obtain ⟨-, hMd⟩ := e3 (by simpa using hi)
      have hi' : M.hasInputs = false := by
        have : Mc.hasInputs = M.hasInputs := by rw [c1, b1]; rfl
        rw [← this]
        simpa using hi
      refine ⟨0, ?_⟩
      rw [hMd, c1, b1]
      simp [PModel.blanked, hi']
  exact ⟨r, m, d, by rw [e1]; exact hr, hm, by rw [e1, c1, b1]⟩

/-- **C127** (rejected data). If the shapes are not consistent, `fit` raises an error and no operator has entries
afterwards. -/
theorem C127_rejected [CommRing K] [LinearOrder K] (lib : ItpLib K) (I : SolverI K S) (M : PModel K S)
    (hint : M.intrusive = false) (hall : ∀ s ∈ M.slots, s.infer = true)
    (hin : M.hasInputs = M.ops.any fun o => o.kind.hasInputs) (c : PFitCall K)
    (h : ¬ ∃ r m d, c.Shaped M.hasInputs (M.ops.any POp.isParam) r m d) :
    (∃ e, (M.callFit lib I c).2 = .error e) ∧ ∀ o ∈ (M.callFit lib I c).1.ops, o.isCal = false := by
  obtain ⟨h1, h2⟩ := process_unset lib M hall hin c
  rw [PModel.callFit, PModel.fit, hint, PModel.fitSolver]
  rcases hp : M.processFitArgs lib c.params c.states c.lhs c.inputs with ⟨N, e | x⟩
  · rw [hp] at h1
    exact ⟨⟨e, rfl⟩, h1⟩
  · obtain ⟨r, m, d, k1, k2, k3⟩ := h2 N x hp
    exact absurd ⟨r, m, d, (C127_accepts lib M hall hin c r m d).1 ⟨N, x, hp, k1, k2, k3⟩⟩ h

/-- **C127** (interpolated models). The same holds for models all of whose operators are interpolated. -/
theorem C127_interpolated_rejected [CommRing K] [LinearOrder K] (lib : ItpLib K) (plain : S) (l2 : Int → S)
    (I : SolverI K S) (M : IModel K S) (hint : M.base.intrusive = false) (hall : ∀ s ∈ M.base.slots, s.infer = true)
    (hin : M.base.hasInputs = M.base.ops.any fun o => o.kind.hasInputs) (c : PFitCall K)
    (h : ¬ ∃ r m d, c.Shaped M.base.hasInputs (M.base.ops.any POp.isParam) r m d) :
    (∃ e, (M.fit lib plain l2 I c.params c.states c.lhs c.inputs).2 = .error e) ∧
    ∀ o ∈ (M.fit lib plain l2 I c.params c.states c.lhs c.inputs).1.base.ops, o.isCal = false := by
  obtain ⟨h1, h2⟩ := process_unset lib M.base hall hin c
  rw [IModel.fit, hint, IModel.fitSolver]
  rcases hp : M.base.processFitArgs lib c.params c.states c.lhs c.inputs with ⟨N, e | x⟩
  · rw [hp] at h1
    exact ⟨⟨e, rfl⟩, h1⟩
  · obtain ⟨r, m, d, k1, k2, k3⟩ := h2 N x hp
    exact absurd ⟨r, m, d, (C127_accepts lib M.base hall hin c r m d).1 ⟨N, x, hp, k1, k2, k3⟩⟩ h

/-- **C127** (dimensions after training). If `fit` returns normally, the data had consistent shapes and the model reports
their dimensions and the number of parameter values. -/
theorem C127_dimensions [CommRing K] [LinearOrder K] (lib : ItpLib K) (I : SolverI K S) (M M' : PModel K S)
    (hint : M.intrusive = false) (hall : ∀ s ∈ M.slots, s.infer = true)
    (hin : M.hasInputs = M.ops.any fun o => o.kind.hasInputs) (c : PFitCall K)
    (h : M.callFit lib I c = (M', .ok ())) :
    ∃ r m d, c.Shaped M.hasInputs (M.ops.any POp.isParam) r m d ∧ M'.r = some r ∧ M'.m = some m ∧ M'.p = some d ∧
      M'.s = some c.params.length := by
  obtain ⟨-, h2⟩ := process_unset lib M hall hin c
  rw [PModel.callFit, PModel.fit, hint] at h
  simp only [Bool.false_eq_true, if_false] at h
  split at h
  · cases h
  rename_i N hs
  have key : N.r = M'.r ∧ N.m = M'.m ∧ N.p = M'.p ∧ N.s = M'.s := by
    unfold PModel.refit at h
    split at h
    · cases h; exact ⟨rfl, rfl, rfl, rfl⟩
    split at h
    · cases h
    split at h
    · cases h
    split at h
    · cases h
    simp only [Prod.mk.injEq] at h
    obtain ⟨rfl, -⟩ := h
    exact ⟨rfl, rfl, rfl, rfl⟩
  rw [PModel.fitSolver] at hs
  split at hs
  · cases hs
  rename_i N1 data Z hp
  obtain ⟨r, m, d, k1, k2, k3⟩ := h2 N1 _ hp
  refine ⟨r, m, d, (C127_accepts lib M hall hin c r m d).1 ⟨N1, _, hp, k1, k2, k3⟩, ?_⟩
  rw [← key.1, ← key.2.1, ← key.2.2.1, ← key.2.2.2]
  split at hs
  · cases hs
  simp only at hs
  split at hs
  · cases hs
  split at hs
  · cases hs
  split at hs
  · cases hs
  cases hs
  exact ⟨k1, k2, k3, rfl⟩

/-! ### Examples -/

/-- A model with an affine linear operator and an input operator, both to be learned. -/
def accModel : PModel ℚ (Option (Nat × Nat)) where
  slots := [⟨.aff ⟨.lin, 2, fun mu => .ok (.vec (1 :: mu.toList)), none, none⟩, true⟩, ⟨.np ⟨.inp, none⟩, true⟩]
  hasInputs := true
  r := none
  m := none
  intrusive := false
  solver := some none
  p := none
  s := none

/-- Data for two parameter values. -/
def accCall : PFitCall ℚ :=
  ⟨[.scalar 1, .scalar 4], agStates, agLhs, some [.mat 1 [[1], [2]], .mat 1 [[3]]]⟩

example : (∀ s ∈ accModel.slots, s.infer = true) ∧ (accModel.hasInputs = accModel.ops.any fun o => o.kind.hasInputs) ∧
    accCall.Shaped accModel.hasInputs (accModel.ops.any POp.isParam) 2 1 1 ∧
    (accModel.callFit toyLib exSolver accCall).2 = .ok () := by
  refine ⟨by decide, by decide, ⟨by decide, ⟨none, by decide, rfl⟩, by decide, rfl, by decide, rfl, by decide, ?_, fun _ =>
    ⟨_, rfl, by decide, ?_⟩, by decide⟩, by decide +kernel⟩
  · exact .cons rfl (.cons rfl .nil)
  · exact .cons rfl (.cons rfl .nil)

/-- Without inputs the same data are rejected. -/
example : ¬ ∃ r m d, PFitCall.Shaped { accCall with inputs := none } accModel.hasInputs (accModel.ops.any POp.isParam)
    r m d := by
  rintro ⟨r, m, d, h⟩
  obtain ⟨us, h1, -⟩ := h.inputs rfl
  cases h1

end Opinf
