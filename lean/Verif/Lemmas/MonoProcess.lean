import Verif.Lemmas.MonoFit

/-!
# `_process_fit_arguments`: what is known when it succeeds
-/

namespace Opinf

open List

variable {K : Type}

/-- Facts about an operator object whose entries were accepted by `set_entries`. -/
def Op.Good (o : Op K) : Prop :=
  ∀ E, o.entries = some E → 0 < E.nrows ∧ ∃ m, o.kind.Fits E E.nrows m

/-- What holds of every model object (see `construct_inv` and the preservation lemmas). -/
structure Model.Inv {S : Type} (M : Model K S) : Prop where
  good : ∀ s ∈ M.slots, s.op.Good
  inputs : M.hasInputs = M.ops.any (·.kind.hasInputs)
  known : ∀ s ∈ M.slots, s.infer = false → s.op.entries.isSome
  solver : M.intrusive = false → M.solver.isSome
  learn : M.intrusive = false → ∃ s ∈ M.slots, s.infer = true

/-- The slots after `_clear()`. -/
def clearSlots (slots : List (Slot K)) : List (Slot K) :=
  slots.map fun s => if s.infer then { s with op := s.op.clear } else s

theorem mem_clearSlots {slots : List (Slot K)} {s : Slot K} (h : s ∈ clearSlots slots) :
    ∃ t ∈ slots, s.infer = t.infer ∧ s.op.kind = t.op.kind ∧
      (t.infer = true → s.op.entries = none) ∧ (t.infer = false → s = t) := by
  obtain ⟨t, ht, rfl⟩ := mem_map.mp h
  refine ⟨t, ht, ?_⟩
  cases hi : t.infer <;> simp [hi, Op.clear]

theorem clearSlots_kinds (slots : List (Slot K)) :
    ((clearSlots slots).map Slot.op).map Op.kind = (slots.map Slot.op).map Op.kind := by
  simp only [clearSlots, map_map]
  apply map_congr_left
  intro s _
  simp only [Function.comp]
  split <;> rfl

theorem clearSlots_any (slots : List (Slot K)) :
    ((clearSlots slots).map Slot.op).any (·.kind.hasInputs)
      = (slots.map Slot.op).any (·.kind.hasInputs) := by
  have h : ∀ l : List (Op K), l.any (·.kind.hasInputs) = (l.map Op.kind).any OpKind.hasInputs := by
    intro l; rw [any_map]; rfl
  rw [h, h, clearSlots_kinds]

theorem stateDimCheck_ok {ops : List (Op K)} {r : Option Nat} (h : stateDimCheck ops = .ok r) :
    ∀ o ∈ ops, ∀ E, o.entries = some E → r = some E.nrows := by
  intro o ho E hE
  exact consistentDim_ok h _ (mem_filterMap.mpr ⟨o, ho, by simp [Op.stateDim, hE]⟩)

theorem inputDimCheck_ok {ops : List (Op K)} {m : Option Nat} (h : inputDimCheck ops = .ok m) :
    (∀ o ∈ ops, o.kind.hasInputs = true → ∀ d, o.inputDim = some d → m = some d) ∧
    (ops.any (·.kind.hasInputs) = false → m = some 0) := by
  simp only [inputDimCheck] at h
  split at h
  · rename_i he
    have he' : ops.filter (·.kind.hasInputs) = [] := by simpa using he
    rw [filter_eq_nil_iff] at he'
    simp only [Except.ok.injEq] at h
    refine ⟨fun o ho hi => absurd hi (he' o ho), fun _ => h.symm⟩
  · rename_i he
    refine ⟨?_, ?_⟩
    · intro o ho hi d hd
      exact consistentDim_ok h _ (mem_filterMap.mpr ⟨o, mem_filter.mpr ⟨ho, hi⟩, hd⟩)
    · intro hany
      exfalso
      apply he
      rw [List.isEmpty_iff, filter_eq_nil_iff]
      intro o ho
      have := any_eq_false.mp hany o ho
      simpa using this

theorem clear_ok {S : Type} {M M1 : Model K S} {x : Except Err Unit} (h : M.clear = (M1, x)) :
    M1.slots = clearSlots M.slots ∧ M1.hasInputs = M.hasInputs ∧ M1.intrusive = M.intrusive ∧
      M1.solver = M.solver ∧
    (x = .ok () →
      (∀ o ∈ M1.ops, ∀ E, o.entries = some E → M1.r = some E.nrows) ∧
      (∀ o ∈ M1.ops, o.kind.hasInputs = true → ∀ d, o.inputDim = some d → M1.m = some d) ∧
      (M1.ops.any (·.kind.hasInputs) = false → M1.m = some 0)) := by
  simp only [Model.clear] at h
  split at h
  · simp only [Prod.mk.injEq] at h
    obtain ⟨rfl, rfl⟩ := h
    exact ⟨rfl, rfl, rfl, rfl, by simp⟩
  · rename_i r hr
    split at h
    · simp only [Prod.mk.injEq] at h
      obtain ⟨rfl, rfl⟩ := h
      exact ⟨rfl, rfl, rfl, rfl, by simp⟩
    · rename_i m hm
      simp only [Prod.mk.injEq] at h
      obtain ⟨rfl, rfl⟩ := h
      exact ⟨rfl, rfl, rfl, rfl, fun _ => ⟨stateDimCheck_ok hr, (inputDimCheck_ok hm).1,
        (inputDimCheck_ok hm).2⟩⟩

theorem setStateDim_ok {S : Type} {M M1 : Model K S} {n : Nat} {x : Except Err Unit}
    (h : M.setStateDim n = (M1, x)) :
    M1.slots = M.slots ∧ M1.hasInputs = M.hasInputs ∧ M1.intrusive = M.intrusive ∧
      M1.solver = M.solver ∧ M1.m = M.m ∧
    (x = .ok () → M1.r = some n ∧ ∀ o ∈ M1.ops, ∀ E, o.entries = some E → E.nrows = n) := by
  simp only [Model.setStateDim] at h
  split at h
  · simp only [Prod.mk.injEq] at h
    obtain ⟨rfl, rfl⟩ := h
    exact ⟨rfl, rfl, rfl, rfl, rfl, by simp⟩
  · rename_i hany
    simp only [Prod.mk.injEq] at h
    obtain ⟨rfl, rfl⟩ := h
    refine ⟨rfl, rfl, rfl, rfl, rfl, fun _ => ⟨rfl, ?_⟩⟩
    intro o ho E hE
    have h1 : M.ops.any (fun o => o.entries.isSome && o.stateDim != some n) = false := by
      rwa [Bool.not_eq_true] at hany
    have := any_eq_false.mp h1 o ho
    simpa [hE, Op.stateDim] using this

theorem setInputDim_ok {S : Type} {M M1 : Model K S} {n : Nat} {x : Except Err Unit}
    (h : M.setInputDim n = (M1, x)) :
    M1.slots = M.slots ∧ M1.hasInputs = M.hasInputs ∧ M1.intrusive = M.intrusive ∧
      M1.solver = M.solver ∧ M1.r = M.r ∧
    (x = .ok () → M1.m = some n ∧
      ∀ o ∈ M1.ops, o.kind.hasInputs = true → ∀ d, o.inputDim = some d → d = n) := by
  simp only [Model.setInputDim] at h
  split at h
  · simp only [Prod.mk.injEq] at h
    obtain ⟨rfl, rfl⟩ := h
    exact ⟨rfl, rfl, rfl, rfl, rfl, by simp⟩
  · split at h
    · simp only [Prod.mk.injEq] at h
      obtain ⟨rfl, rfl⟩ := h
      exact ⟨rfl, rfl, rfl, rfl, rfl, by simp⟩
    · rename_i hany
      simp only [Prod.mk.injEq] at h
      obtain ⟨rfl, rfl⟩ := h
      refine ⟨rfl, rfl, rfl, rfl, rfl, fun _ => ⟨rfl, ?_⟩⟩
      intro o ho hi d hd
      have h1 : M.ops.any (fun o => o.kind.hasInputs && o.entries.isSome && o.inputDim != some n)
          = false := by rwa [Bool.not_eq_true] at hany
      have := any_eq_false.mp h1 o ho
      have hs : o.entries.isSome = true := by
        cases he : o.entries with
        | none => simp [Op.inputDim, he] at hd
        | some E => rfl
      simpa [hi, hs, hd] using this

/-- Everything `_process_fit_arguments` guarantees. The first part also holds when it raises. -/
theorem process_spec {S : Type} [CommRing K] {M M1 : Model K S} {states lhs : Arg K}
    {inputs : Option (Arg K)}
    {x : Except Err (List (List K) × List (List K) × Option (Nat × List (List K)))}
    (h : M.processFitArgs states lhs inputs = (M1, x)) :
    (M1.slots = clearSlots M.slots ∧ M1.hasInputs = M.hasInputs ∧ M1.intrusive = M.intrusive ∧
      M1.solver = M.solver) ∧
    ∀ Q Z U, x = .ok (Q, Z, U) →
      M1.r = some (atleast2d states).1 ∧ Q = (atleast2d states).2 ∧
      (atleast2d lhs).1 = (atleast2d states).1 ∧ (atleast2d lhs).2.length = Q.length ∧
      (∀ o ∈ M1.ops, ∀ E, o.entries = some E → E.nrows = (atleast2d states).1) ∧
      (M.hasInputs = true → ∃ a, inputs = some a ∧ U = some (atleast2d a) ∧
        M1.m = some (atleast2d a).1 ∧ (atleast2d a).2.length = Q.length ∧
        (∀ o ∈ M1.ops, o.kind.hasInputs = true → ∀ d, o.inputDim = some d → d = (atleast2d a).1) ∧
        subKnown (atleast2d states).1 (.mat (atleast2d states).1 (atleast2d states).2)
          (some (.mat (atleast2d a).1 (atleast2d a).2)) M1.slots (atleast2d lhs).2 = .ok Z) ∧
      (M.hasInputs = false → U = none ∧
        (M1.ops.any (·.kind.hasInputs) = false → M1.m = some 0) ∧
        subKnown (atleast2d states).1 (.mat (atleast2d states).1 (atleast2d states).2)
          inputs M1.slots (atleast2d lhs).2 = .ok Z) := by
  unfold Model.processFitArgs at h
  split at h
  · -- clear raised
    rename_i M' e hc
    simp only [Prod.mk.injEq] at h
    obtain ⟨rfl, rfl⟩ := h
    have := clear_ok hc
    exact ⟨⟨this.1, this.2.1, this.2.2.1, this.2.2.2.1⟩, by simp⟩
  · rename_i M' hc
    obtain ⟨c1, c2, c3, c4, c5⟩ := clear_ok hc
    obtain ⟨c6, c7, c8⟩ := c5 rfl
    simp only at h
    -- the state dimension
    have key : ∀ (M2 : Model K S) (y : Except Err Unit),
        (if M'.r.isNone then M'.setStateDim (atleast2d states).1 else (M', .ok ())) = (M2, y) →
        (M2.slots = M'.slots ∧ M2.hasInputs = M'.hasInputs ∧ M2.intrusive = M'.intrusive ∧
          M2.solver = M'.solver ∧ M2.m = M'.m) ∧
        (y = .ok () → some (atleast2d states).1 = M2.r →
          ∀ o ∈ M2.ops, ∀ E, o.entries = some E → E.nrows = (atleast2d states).1) := by
      intro M2 y hM2
      split at hM2
      · obtain ⟨s1, s2, s3, s4, s5, s6⟩ := setStateDim_ok hM2
        exact ⟨⟨s1, s2, s3, s4, s5⟩, fun hy _ => (s6 hy).2⟩
      · simp only [Prod.mk.injEq] at hM2
        obtain ⟨rfl, rfl⟩ := hM2
        refine ⟨⟨rfl, rfl, rfl, rfl, rfl⟩, fun _ hr o ho E hE => ?_⟩
        have := c6 o ho E hE
        rw [← hr] at this
        exact (Option.some.inj this).symm
    split at h
    · rename_i M2 e hM2
      obtain ⟨⟨k1, k2, k3, k4, k5⟩, -⟩ := key _ _ hM2
      simp only [Prod.mk.injEq] at h
      obtain ⟨rfl, rfl⟩ := h
      exact ⟨⟨k1.trans c1, k2.trans c2, k3.trans c3, k4.trans c4⟩, by simp⟩
    · rename_i M2 hM2
      obtain ⟨⟨k1, k2, k3, k4, k5⟩, k6⟩ := key _ _ hM2
      have base : M2.slots = clearSlots M.slots ∧ M2.hasInputs = M.hasInputs ∧
          M2.intrusive = M.intrusive ∧ M2.solver = M.solver :=
        ⟨k1.trans c1, k2.trans c2, k3.trans c3, k4.trans c4⟩
      have hops : M2.ops = M'.ops := by simp [Model.ops, k1]
      split at h
      · simp only [Prod.mk.injEq] at h
        obtain ⟨rfl, rfl⟩ := h
        exact ⟨base, by simp⟩
      · rename_i hr
        have hr' : some (atleast2d states).1 = M2.r := by simpa using hr
        have k7 := k6 rfl hr'
        split at h
        · simp only [Prod.mk.injEq] at h
          obtain ⟨rfl, rfl⟩ := h
          exact ⟨base, by simp⟩
        · rename_i hlr
          have hlr' : (atleast2d lhs).1 = (atleast2d states).1 := by
            have : some (atleast2d lhs).1 = M2.r := by simpa using hlr
            rw [← hr'] at this
            exact Option.some.inj this
          split at h
          · simp only [Prod.mk.injEq] at h
            obtain ⟨rfl, rfl⟩ := h
            exact ⟨base, by simp⟩
          · rename_i hlk
            have hlk' : (atleast2d lhs).2.length = (atleast2d states).2.length := by simpa using hlk
            split at h
            · simp only [Prod.mk.injEq] at h
              obtain ⟨rfl, rfl⟩ := h
              exact ⟨base, by simp⟩
            · split at h
              · -- inputs are used
                rename_i hin
                have hinM : M.hasInputs = true := base.2.1 ▸ hin
                split at h
                · simp only [Prod.mk.injEq] at h
                  obtain ⟨rfl, rfl⟩ := h
                  exact ⟨base, by simp⟩
                · rename_i a _
                  have key3 : ∀ (M3 : Model K S) (y : Except Err Unit),
                      (if M2.m.getD 0 = 0 then M2.setInputDim (atleast2d a).1 else (M2, .ok ()))
                        = (M3, y) →
                      (M3.slots = M2.slots ∧ M3.hasInputs = M2.hasInputs ∧
                        M3.intrusive = M2.intrusive ∧ M3.solver = M2.solver ∧ M3.r = M2.r) ∧
                      (y = .ok () → some (atleast2d a).1 = M3.m →
                        ∀ o ∈ M3.ops, o.kind.hasInputs = true → ∀ d, o.inputDim = some d →
                          d = (atleast2d a).1) := by
                    intro M3 y hM3
                    split at hM3
                    · obtain ⟨s1, s2, s3, s4, s5, s6⟩ := setInputDim_ok hM3
                      exact ⟨⟨s1, s2, s3, s4, s5⟩, fun hy _ => (s6 hy).2⟩
                    · simp only [Prod.mk.injEq] at hM3
                      obtain ⟨rfl, rfl⟩ := hM3
                      refine ⟨⟨rfl, rfl, rfl, rfl, rfl⟩, fun _ hm o ho hi d hd => ?_⟩
                      have := c7 o (hops ▸ ho) hi d hd
                      rw [← k5, ← hm] at this
                      exact (Option.some.inj this).symm
                  split at h
                  · rename_i M3 e hM3
                    obtain ⟨⟨j1, j2, j3, j4, j5⟩, -⟩ := key3 _ _ hM3
                    simp only [Prod.mk.injEq] at h
                    obtain ⟨rfl, rfl⟩ := h
                    exact ⟨⟨j1.trans base.1, j2.trans base.2.1, j3.trans base.2.2.1,
                      j4.trans base.2.2.2⟩, by simp⟩
                  · rename_i M3 hM3
                    obtain ⟨⟨j1, j2, j3, j4, j5⟩, j6⟩ := key3 _ _ hM3
                    have base3 : M3.slots = clearSlots M.slots ∧ M3.hasInputs = M.hasInputs ∧
                        M3.intrusive = M.intrusive ∧ M3.solver = M.solver :=
                      ⟨j1.trans base.1, j2.trans base.2.1, j3.trans base.2.2.1, j4.trans base.2.2.2⟩
                    split at h
                    · simp only [Prod.mk.injEq] at h
                      obtain ⟨rfl, rfl⟩ := h
                      exact ⟨base3, by simp⟩
                    · rename_i hm
                      have hm' : some (atleast2d a).1 = M3.m := by simpa using hm
                      split at h
                      · simp only [Prod.mk.injEq] at h
                        obtain ⟨rfl, rfl⟩ := h
                        exact ⟨base3, by simp⟩
                      · rename_i huk
                        have huk' : (atleast2d a).2.length = (atleast2d states).2.length := by
                          simpa using huk
                        split at h
                        · simp only [Prod.mk.injEq] at h
                          obtain ⟨rfl, rfl⟩ := h
                          exact ⟨base3, by simp⟩
                        · rename_i Z' hZ
                          simp only [Prod.mk.injEq] at h
                          obtain ⟨rfl, rfl⟩ := h
                          refine ⟨base3, ?_⟩
                          intro Q Z U hx
                          simp only [Except.ok.injEq, Prod.mk.injEq] at hx
                          obtain ⟨rfl, rfl, rfl⟩ := hx
                          refine ⟨j5.trans hr'.symm, rfl, hlr', hlk', ?_, ?_, ?_⟩
                          · have : M3.ops = M2.ops := by simp [Model.ops, j1]
                            rw [this]; exact k7
                          · intro _
                            exact ⟨a, rfl, rfl, hm'.symm, huk', j6 rfl hm', hZ⟩
                          · intro hf; rw [hinM] at hf; cases hf
              · rename_i hin
                have hinM : M.hasInputs = false := by
                  have : M2.hasInputs = false := by simpa using hin
                  exact base.2.1 ▸ this
                split at h
                · simp only [Prod.mk.injEq] at h
                  obtain ⟨rfl, rfl⟩ := h
                  exact ⟨base, by simp⟩
                · rename_i Z' hZ
                  simp only [Prod.mk.injEq] at h
                  obtain ⟨rfl, rfl⟩ := h
                  refine ⟨base, ?_⟩
                  intro Q Z U hx
                  simp only [Except.ok.injEq, Prod.mk.injEq] at hx
                  obtain ⟨rfl, rfl, rfl⟩ := hx
                  refine ⟨hr'.symm, rfl, hlr', hlk', k7, ?_, ?_⟩
                  · intro hf; rw [hinM] at hf; cases hf
                  · intro _
                    refine ⟨rfl, ?_, hZ⟩
                    rw [hops, k5]
                    exact c8

end Opinf
