import Verif.Lemmas.MonoHist
import Verif.Props.Fit

/-!
# Construction of models
-/

namespace Opinf

open List

variable {K : Type}

/-! ### Helper lemmas -/

theorem scanOps_spec (h : Bool) (args : List (OpArg K)) :
    match args.mapM OpArg.resolve with
    | .ok ops => scanOps h args = (h || ops.any (·.kind.hasInputs), .ok ops)
    | .error e => (scanOps h args).2 = .error e := by
  induction args generalizing h with
  | nil => simp [scanOps, mapM_nil, pure, Except.pure]
  | cons a args ih =>
    rw [mapM_cons]
    cases ha : a.resolve with
    | error e => simp [scanOps, ha, bind, Except.bind]
    | ok o =>
      have := ih (h || o.kind.hasInputs)
      cases hm : args.mapM OpArg.resolve with
      | error e =>
        rw [hm] at this
        rcases hs : scanOps (h || o.kind.hasInputs) args with ⟨h', x⟩
        rw [hs] at this
        simp only at this
        subst this
        simp [scanOps, ha, bind, Except.bind, hs]
      | ok ops =>
        rw [hm] at this
        simp only at this
        simp [scanOps, ha, bind, Except.bind, this, pure, Except.pure, Bool.or_assoc]

/-- All values in the list agree. -/
def Agree (ds : List Nat) : Prop := ∀ d ∈ ds, ∀ d' ∈ ds, d = d'

theorem consistentDim_iff (ds : List Nat) :
    (Agree ds → consistentDim ds = .ok ds.head?) ∧
    (¬Agree ds → consistentDim ds = .error .dimensionality) := by
  cases ds with
  | nil => exact ⟨fun _ => rfl, fun h => absurd (by intro d hd; cases hd) h⟩
  | cons d ds =>
    have : Agree (d :: ds) ↔ ds.all (· == d) = true := by
      rw [all_eq_true]
      constructor
      · intro h x hx
        simp [h x (mem_cons_of_mem _ hx) d mem_cons_self]
      · intro h
        have h' : ∀ x ∈ d :: ds, x = d := by
          intro x hx
          rcases mem_cons.mp hx with rfl | hx
          · rfl
          · simpa using h x hx
        intro a ha b hb
        rw [h' a ha, h' b hb]
    simp only [consistentDim]
    constructor
    · intro h; rw [if_pos (this.mp h)]; rfl
    · intro h; rw [if_neg (fun hh => h (this.mpr hh))]

theorem inputDimCheck_iff (ops : List (Op K)) :
    (Agree ((ops.filter (·.kind.hasInputs)).filterMap Op.inputDim) →
      ∃ m, inputDimCheck ops = .ok m) ∧
    (¬Agree ((ops.filter (·.kind.hasInputs)).filterMap Op.inputDim) →
      inputDimCheck ops = .error .dimensionality) := by
  obtain ⟨h1, h2⟩ := consistentDim_iff ((ops.filter (·.kind.hasInputs)).filterMap Op.inputDim)
  simp only [inputDimCheck]
  constructor
  · intro h
    split
    · exact ⟨_, rfl⟩
    · exact ⟨_, h1 h⟩
  · intro h
    rw [if_neg, h2 h]
    intro he
    rw [List.isEmpty_iff] at he
    apply h
    rw [he]
    intro d hd; cases hd

/-! ### C57 -/

/-- What the documentation asks of a list of operators. -/
structure Consistent (ops : List (Op K)) : Prop where
  nonempty : ops ≠ []
  /-- no two operators to be inferred are of the same type -/
  types : ((ops.filter (·.entries.isNone)).map Op.kind).Nodup
  /-- all operators with entries agree on the state dimension -/
  states : ∀ o ∈ ops, ∀ o' ∈ ops, ∀ d d', o.stateDim = some d → o'.stateDim = some d' → d = d'
  /-- all operators with entries and inputs agree on the input dimension -/
  inputs : ∀ o ∈ ops, ∀ o' ∈ ops, o.kind.hasInputs = true → o'.kind.hasInputs = true →
    ∀ d d', o.inputDim = some d → o'.inputDim = some d' → d = d'

theorem agree_filterMap {α : Type*} (l : List α) (f : α → Option Nat) :
    Agree (l.filterMap f) ↔ ∀ a ∈ l, ∀ b ∈ l, ∀ d d', f a = some d → f b = some d' → d = d' := by
  constructor
  · intro h a ha b hb d d' hd hd'
    exact h d (mem_filterMap.mpr ⟨a, ha, hd⟩) d' (mem_filterMap.mpr ⟨b, hb, hd'⟩)
  · intro h d hd d' hd'
    obtain ⟨a, ha, hfa⟩ := mem_filterMap.mp hd
    obtain ⟨b, hb, hfb⟩ := mem_filterMap.mp hd'
    exact h a ha b hb d d' hfa hfb

theorem setOperators_spec {S : Type} (M : Model K S) (args : List (OpArg K)) (ops : List (Op K))
    (hops : args.mapM OpArg.resolve = .ok ops) :
    (Consistent ops → ∃ r m, stateDimCheck ops = .ok r ∧ inputDimCheck ops = .ok m ∧
      M.setOperators args = ({ M with
        hasInputs := ops.any (·.kind.hasInputs)
        slots := ops.map fun o => ⟨o, o.entries.isNone⟩
        r := r, m := m
        intrusive := (ops.filter (·.entries.isNone)).isEmpty }, .ok ())) ∧
    (¬Consistent ops → ∃ e, (M.setOperators args).2 = .error e ∧ (e = .value ∨ e = .dimensionality)) := by
  have hlen : args.length = 0 ↔ ops = [] := by
    constructor
    · intro h
      rw [length_eq_zero_iff] at h
      subst h
      rw [mapM_nil] at hops
      cases hops; rfl
    · intro h
      subst h
      cases args with
      | nil => rfl
      | cons a args =>
        exfalso
        rw [mapM_cons] at hops
        cases ha : a.resolve with
        | error e => rw [ha] at hops; cases hops
        | ok o =>
          cases hm : args.mapM OpArg.resolve with
          | error e => rw [ha, hm] at hops; cases hops
          | ok os => rw [ha, hm] at hops; cases hops
  have hscan := scanOps_spec false args
  rw [hops] at hscan
  simp only [Bool.false_or] at hscan
  obtain ⟨s1, s2⟩ := consistentDim_iff (ops.filterMap Op.stateDim)
  obtain ⟨i1, i2⟩ := inputDimCheck_iff ops
  constructor
  · intro hc
    have hst : Agree (ops.filterMap Op.stateDim) := (agree_filterMap _ _).mpr hc.states
    have hin : Agree ((ops.filter (·.kind.hasInputs)).filterMap Op.inputDim) := by
      rw [agree_filterMap]
      intro a ha b hb
      rw [mem_filter] at ha hb
      exact hc.inputs a ha.1 b hb.1 ha.2 hb.2
    obtain ⟨m, hm⟩ := i1 hin
    have hr : stateDimCheck ops = .ok (ops.filterMap Op.stateDim).head? := s1 hst
    refine ⟨_, m, hr, hm, ?_⟩
    rw [Model.setOperators, if_neg (by rw [hlen]; exact hc.nonempty), hscan]
    have ht : typesUnique (ops.filter (·.entries.isNone)) = .ok () := by
      rw [typesUnique, if_pos hc.types]
    simp only [ht, hr, hm]
  · intro hc
    rw [Model.setOperators]
    split
    · exact ⟨_, rfl, Or.inl rfl⟩
    · rename_i hne
      rw [hscan]
      simp only
      by_cases ht : ((ops.filter (·.entries.isNone)).map Op.kind).Nodup
      · rw [typesUnique, if_pos ht]
        simp only
        by_cases hst : Agree (ops.filterMap Op.stateDim)
        · have hr : stateDimCheck ops = .ok (ops.filterMap Op.stateDim).head? := s1 hst
          rw [hr]
          simp only
          have hin : ¬Agree ((ops.filter (·.kind.hasInputs)).filterMap Op.inputDim) := by
            intro hin
            apply hc
            refine ⟨fun h => hne (hlen.mpr h), ht, (agree_filterMap _ _).mp hst, ?_⟩
            rw [agree_filterMap] at hin
            intro o ho o' ho' h1 h2
            exact hin o (mem_filter.mpr ⟨ho, h1⟩) o' (mem_filter.mpr ⟨ho', h2⟩)
          rw [i2 hin]
          exact ⟨_, rfl, Or.inr rfl⟩
        · have hr : stateDimCheck ops = .error .dimensionality := s2 hst
          rw [hr]
          exact ⟨_, rfl, Or.inr rfl⟩
      · rw [typesUnique, if_neg ht]
        exact ⟨_, rfl, Or.inl rfl⟩

/-- The solver argument is acceptable: a number must not be negative. -/
def SolverArg.Valid {S : Type} : SolverArg S → Prop
  | .scalar x => 0 ≤ x
  | _ => True

/-- **C57.** A model can be constructed exactly when all elements of the list denote operators, the
list is consistent, and (if anything is to be learned) a scalar solver argument is not negative. -/
theorem C57_construct_iff {S : Type} (plain : S) (l2 : Int → S) (args : List (OpArg K))
    (a : SolverArg S) :
    (∃ M, Model.construct plain l2 args a = .ok M) ↔
    ∃ ops, args.mapM OpArg.resolve = .ok ops ∧ Consistent ops ∧
      ((∃ o ∈ ops, o.entries = none) → a.Valid) := by
  have hsol : ∀ M : Model K S, (∃ N, M.setSolver plain l2 a = (N, .ok ())) ↔
      (M.intrusive = false → a.Valid) := by
    intro M
    simp only [Model.setSolver]
    cases hi : M.intrusive
    · simp only [Bool.false_eq_true, if_false, forall_const]
      cases a with
      | none => simp [SolverArg.Valid]
      | obj s => simp [SolverArg.Valid]
      | scalar x =>
        simp only [SolverArg.Valid]
        by_cases h0 : x = 0
        · simp [h0]
        · by_cases h1 : x > 0
          · rw [if_neg h0, if_pos h1]
            exact ⟨fun _ => by omega, fun _ => ⟨_, rfl⟩⟩
          · rw [if_neg h0, if_neg h1]
            constructor
            · rintro ⟨N, hN⟩; simp at hN
            · intro h; omega
    · simp
  have hscan := scanOps_spec false args
  constructor
  · rintro ⟨M, hM⟩
    rw [Model.construct] at hM
    cases hops : args.mapM OpArg.resolve with
    | error e =>
      exfalso
      rw [hops] at hscan
      simp only at hscan
      rcases hs : scanOps false args with ⟨h, x⟩
      rw [hs] at hscan
      simp only at hscan
      subst hscan
      rw [Model.setOperators] at hM
      split at hM
      · rename_i M' e' h
        simp at hM
      · rename_i M' h
        split at h
        · simp at h
        · rw [hs] at h; simp at h
    | ok ops =>
      obtain ⟨g1, g2⟩ := setOperators_spec (Model.blank K S) args ops hops
      by_cases hc : Consistent ops
      · obtain ⟨r, m, -, -, hset⟩ := g1 hc
        refine ⟨ops, rfl, hc, ?_⟩
        rw [hset] at hM
        simp only at hM
        rintro ⟨o, ho, hn⟩
        refine (hsol { (Model.blank K S) with
            hasInputs := ops.any (·.kind.hasInputs)
            slots := ops.map fun o => ⟨o, o.entries.isNone⟩
            r := r, m := m
            intrusive := (ops.filter (·.entries.isNone)).isEmpty }).mp ?_ ?_
        · split at hM
          · simp at hM
          · rename_i M' h
            exact ⟨M', h⟩
        · show (ops.filter (·.entries.isNone)).isEmpty = false
          rw [← Bool.not_eq_true, List.isEmpty_iff, filter_eq_nil_iff]
          intro h
          exact h o ho (by simp [hn])
      · exfalso
        obtain ⟨e, he, -⟩ := g2 hc
        rcases hset : (Model.blank K S).setOperators args with ⟨M', x⟩
        rw [hset] at he hM
        simp only at he
        subst he
        simp at hM
  · rintro ⟨ops, hops, hc, hv⟩
    obtain ⟨r, m, -, -, hset⟩ := (setOperators_spec (Model.blank K S) args ops hops).1 hc
    rw [Model.construct, hset]
    simp only
    have hval : ({ (Model.blank K S) with
            hasInputs := ops.any (·.kind.hasInputs)
            slots := ops.map fun o => ⟨o, o.entries.isNone⟩
            r := r, m := m
            intrusive := (ops.filter (·.entries.isNone)).isEmpty } : Model K S).intrusive = false →
          a.Valid := by
      intro h
      apply hv
      have h' : (ops.filter (·.entries.isNone)).isEmpty = false := h
      rw [← Bool.not_eq_true, List.isEmpty_iff, filter_eq_nil_iff] at h'
      push Not at h'
      obtain ⟨o, ho, hn⟩ := h'
      exact ⟨o, ho, by simpa using hn⟩
    obtain ⟨N, hN⟩ := (hsol _).mpr hval
    rw [hN]
    exact ⟨N, rfl⟩

/-- **C57.** What the constructed model reports: its operators are the given ones, the operators to
infer are those without entries, `state_dimension` and `input_dimension` are those of every operator
with entries (`input_dimension` 0 without input operators), and the class invariant used by the fitting
theorems holds when the entries of the given operators have the shape of their class. -/
theorem C57_construct_reports {S : Type} (plain : S) (l2 : Int → S) (args : List (OpArg K))
    (a : SolverArg S) (M : Model K S) (hM : Model.construct plain l2 args a = .ok M) :
    args.mapM OpArg.resolve = .ok M.ops ∧
    (∀ s ∈ M.slots, s.infer = s.op.entries.isNone) ∧
    (∀ o ∈ M.ops, ∀ d, o.stateDim = some d → M.r = some d) ∧
    (∀ o ∈ M.ops, o.kind.hasInputs = true → ∀ d, o.inputDim = some d → M.m = some d) ∧
    ((∀ o ∈ M.ops, o.kind.hasInputs = false) → M.m = some 0) ∧
    (M.intrusive = true ↔ ∀ o ∈ M.ops, o.entries ≠ none) ∧
    ((∀ o ∈ M.ops, o.Good) → M.Inv) := by
  obtain ⟨ops, hops, hc, hv⟩ := (C57_construct_iff plain l2 args a).mp ⟨M, hM⟩
  obtain ⟨r, m, hr, hm, hset⟩ := (setOperators_spec (Model.blank K S) args ops hops).1 hc
  rw [Model.construct, hset] at hM
  simp only at hM
  generalize hM0 : ({ (Model.blank K S) with
            hasInputs := ops.any (·.kind.hasInputs)
            slots := ops.map fun o => ⟨o, o.entries.isNone⟩
            r := r, m := m
            intrusive := (ops.filter (·.entries.isNone)).isEmpty } : Model K S) = M0 at hM
  have hsolver : M.slots = M0.slots ∧ M.hasInputs = M0.hasInputs ∧ M.r = M0.r ∧ M.m = M0.m ∧
      M.intrusive = M0.intrusive ∧ (M0.intrusive = false → M.solver.isSome) := by
    simp only [Model.setSolver] at hM
    cases hi : M0.intrusive
    · simp only [hi, Bool.false_eq_true, if_false] at hM
      cases a with
      | none => cases hM; exact ⟨rfl, rfl, rfl, rfl, rfl, fun _ => rfl⟩
      | obj s => cases hM; exact ⟨rfl, rfl, rfl, rfl, rfl, fun _ => rfl⟩
      | scalar x =>
        simp only at hM
        by_cases h0 : x = 0
        · rw [if_pos h0] at hM; cases hM; exact ⟨rfl, rfl, rfl, rfl, rfl, fun _ => rfl⟩
        · by_cases h1 : x > 0
          · rw [if_neg h0, if_pos h1] at hM; cases hM; exact ⟨rfl, rfl, rfl, rfl, rfl, fun _ => rfl⟩
          · rw [if_neg h0, if_neg h1] at hM; cases hM
    · simp only [hi, if_true] at hM
      cases hM
      exact ⟨rfl, rfl, rfl, rfl, rfl, by simp⟩
  obtain ⟨q1, q2, q3, q4, q5, q6⟩ := hsolver
  have hMslots : M.slots = ops.map fun o => ⟨o, o.entries.isNone⟩ := by rw [q1, ← hM0]
  have hMops : M.ops = ops := by
    rw [Model.ops, hMslots, map_map]
    exact map_id ops
  have hMr : M.r = r := by rw [q3, ← hM0]
  have hMm : M.m = m := by rw [q4, ← hM0]
  have hMi : M.intrusive = (ops.filter (·.entries.isNone)).isEmpty := by rw [q5, ← hM0]
  have hMh : M.hasInputs = ops.any (·.kind.hasInputs) := by rw [q2, ← hM0]
  have hinfer : ∀ s ∈ M.slots, s.infer = s.op.entries.isNone := by
    intro s hs
    rw [hMslots] at hs
    obtain ⟨o, ho, rfl⟩ := mem_map.mp hs
    rfl
  have hintr : M.intrusive = true ↔ ∀ o ∈ M.ops, o.entries ≠ none := by
    rw [hMi, hMops, List.isEmpty_iff, filter_eq_nil_iff]
    constructor
    · intro h o ho hn; exact h o ho (by simp [hn])
    · intro h o ho hn; exact h o ho (by simpa using hn)
  refine ⟨by rw [hMops, hops], hinfer, ?_, ?_, ?_, hintr, ?_⟩
  · intro o ho d hd
    rw [hMops] at ho
    rw [hMr]
    exact consistentDim_ok hr _ (mem_filterMap.mpr ⟨o, ho, hd⟩)
  · rw [hMops, hMm]; exact (inputDimCheck_ok hm).1
  · rw [hMops, hMm]
    intro h
    apply (inputDimCheck_ok hm).2
    rw [any_eq_false]
    intro o ho; simp [h o ho]
  · intro hg
    refine ⟨fun s hs => hg _ (mem_map.mpr ⟨s, hs, rfl⟩), by rw [hMops]; exact hMh, ?_,
      fun h => q6 (by rw [← q5]; exact h), ?_⟩
    · intro s hs hi
      have := hinfer s hs
      rw [hi] at this
      cases hE : s.op.entries
      · rw [hE] at this; cases this
      · rfl
    · intro h
      by_contra hne
      push Not at hne
      have : M.intrusive = true := by
        rw [hintr]
        intro o ho hn
        obtain ⟨s, hs, rfl⟩ := mem_map.mp ho
        have h1 := hinfer s hs
        rw [hn] at h1
        exact hne s hs h1
      rw [h] at this; cases this

/-- **C57.** What is raised: an element that denotes no operator gives `TypeError`; an inconsistent
list gives `ValueError` or `DimensionalityError`. -/
theorem C57_construct_errors {S : Type} (plain : S) (l2 : Int → S) (args : List (OpArg K))
    (a : SolverArg S) (hne : args ≠ []) :
    (∀ e, args.mapM OpArg.resolve = .error e →
      Model.construct plain l2 args a = .error e ∧ e = .type) ∧
    (∀ ops, args.mapM OpArg.resolve = .ok ops → ¬Consistent ops →
      Model.construct plain l2 args a = .error .value ∨
      Model.construct plain l2 args a = .error .dimensionality) := by
  constructor
  · intro e he
    have htype : e = .type := by
      clear hne
      induction args with
      | nil => rw [mapM_nil] at he; cases he
      | cons b args ih =>
        rw [mapM_cons] at he
        cases hb : b.resolve with
        | error e' =>
          rw [hb] at he
          cases he
          cases b with
          | str s =>
            simp only [OpArg.resolve] at hb
            split at hb
            · cases hb
            · cases hb; rfl
          | op o => cases hb
          | other => cases hb; rfl
        | ok o =>
          rw [hb] at he
          cases hm : args.mapM OpArg.resolve with
          | error e' => rw [hm] at he; cases he; exact ih hm
          | ok os => rw [hm] at he; cases he
    refine ⟨?_, htype⟩
    have hscan := scanOps_spec false args
    rw [he] at hscan
    rcases hs : scanOps false args with ⟨h, x⟩
    rw [hs] at hscan
    simp only at hscan
    subst hscan
    rw [Model.construct, Model.setOperators, if_neg (by simpa using hne), hs]
  · intro ops hops hc
    obtain ⟨e, he, hh⟩ := (setOperators_spec (Model.blank K S) args ops hops).2 hc
    rcases hset : (Model.blank K S).setOperators args with ⟨M', x⟩
    rw [hset] at he
    simp only at he
    subst he
    rw [Model.construct, hset]
    rcases hh with rfl | rfl
    · exact Or.inl rfl
    · exact Or.inr rfl

/-- Concrete lists: a consistent one, a duplicate type, clashing dimensions, an unknown name. -/
example :
    (∃ M, Model.construct () (fun _ => ()) [.str "A", .op ⟨.const, some ⟨1, 1, [[(2 : ℚ)]]⟩⟩, .str "B"]
      (.scalar 3) = .ok M) ∧
    (Model.construct () (fun _ => ()) [(.str "A" : OpArg ℚ), .str "A"] .none : Except Err (Model ℚ Unit))
      = .error .value ∧
    (Model.construct () (fun _ => ()) [.op ⟨.const, some ⟨1, 1, [[(2 : ℚ)]]⟩⟩,
      .op ⟨.const, some ⟨2, 1, [[1], [1]]⟩⟩] .none : Except Err (Model ℚ Unit)) = .error .dimensionality ∧
    (Model.construct () (fun _ => ()) [(.str "Q" : OpArg ℚ)] .none : Except Err (Model ℚ Unit))
      = .error .type :=
  ⟨⟨_, rfl⟩, by decide +kernel, by decide +kernel, by decide +kernel⟩

/-! ### C61: a rejected assignment to `operators` -/

/-- **C61, negation.** `model.operators = bad` raises, but does not leave the model as it was: there is
a trained model without inputs and a rejected list after which the (unchanged) operators can no longer
be evaluated by `predict` without inputs. -/
theorem C61_rejected_assignment_changes_model :
    ∃ (M : Model ℚ Unit) (args : List (OpArg ℚ)), M.Inv ∧
      (M.setOperators args).2 = .error .type ∧
      (M.setOperators args).1.slots = M.slots ∧
      M.predict [1] 3 .none = .ok [[1], [2], [4]] ∧
      (M.setOperators args).1.predict [1] 3 .none = .error .value := by
  refine ⟨⟨[⟨⟨.lin, some ⟨1, 1, [[2]]⟩⟩, false⟩], false, some 1, some 0, true, none⟩,
    [.str "B", .str "no such operator"], ?_, by decide +kernel, by decide +kernel, by decide +kernel,
    by decide +kernel⟩
  refine ⟨?_, rfl, ?_, by simp, by simp⟩
  · intro s hs E hE
    simp only [mem_cons, not_mem_nil, or_false] at hs
    subst hs
    cases hE
    exact ⟨by decide, 0, ⟨rfl, by decide⟩, rfl, rfl⟩
  · intro s hs
    simp only [mem_cons, not_mem_nil, or_false] at hs
    subst hs
    simp

/-- **C61, what does hold.** A rejected list leaves the operators, their flags, the input dimension
and the solver unchanged; an empty list changes nothing at all. -/
theorem C61_rejected_assignment_partial {S : Type} (M : Model K S) (args : List (OpArg K)) (e : Err)
    (he : (M.setOperators args).2 = .error e) :
    (M.setOperators args).1.slots = M.slots ∧ (M.setOperators args).1.m = M.m ∧
    (M.setOperators args).1.intrusive = M.intrusive ∧
    (M.setOperators args).1.solver = M.solver ∧
    (args = [] → (M.setOperators args).1 = M) := by
  rw [Model.setOperators] at he ⊢
  split
  · exact ⟨rfl, rfl, rfl, rfl, fun _ => rfl⟩
  · rename_i hl
    have hne : args ≠ [] := by simpa using hl
    rw [if_neg hl] at he
    split
    · exact ⟨rfl, rfl, rfl, rfl, fun h => absurd h hne⟩
    · rename_i h ops hs
      rw [hs] at he
      simp only at he ⊢
      split
      · exact ⟨rfl, rfl, rfl, rfl, fun h => absurd h hne⟩
      · rename_i ht
        rw [ht] at he
        simp only at he
        split
        · exact ⟨rfl, rfl, rfl, rfl, fun h => absurd h hne⟩
        · rename_i r hr
          rw [hr] at he
          simp only at he
          split
          · exact ⟨rfl, rfl, rfl, rfl, fun h => absurd h hne⟩
          · rename_i m hm
            rw [hm] at he
            cases he

end Opinf
