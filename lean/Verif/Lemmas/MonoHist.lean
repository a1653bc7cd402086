import Verif.Lemmas.MonoMaster

/-!
# Lemmas on outcomes of `fit` and on repeated fits
-/

namespace Opinf

open List

variable {K : Type}

theorem getD_matVec [CommSemiring K] (A : List (List K)) (x : List K) (i : Nat) :
    (matVec A x).getD i 0 = dot (A.getD i []) x := by
  simp only [matVec, getD_eq_getElem?_getD, getElem?_map]
  cases A[i]? <;> simp [dot]

theorem clearSlots_known (slots : List (Slot K)) :
    (clearSlots slots).filter (fun s => !s.infer) = slots.filter (fun s => !s.infer) := by
  induction slots with
  | nil => rfl
  | cons s slots ih =>
    simp only [clearSlots, map_cons] at ih ⊢
    cases h : s.infer
    · simp [h, ih]
    · simp [h, ih]

theorem clearSlots_toInfer (slots : List (Slot K)) :
    ((clearSlots slots).filter Slot.infer).map (fun s => s.op.kind)
      = (slots.filter Slot.infer).map (fun s => s.op.kind) := by
  induction slots with
  | nil => rfl
  | cons s slots ih =>
    simp only [clearSlots, map_cons] at ih ⊢
    cases h : s.infer
    · simp [h, ih]
    · rw [if_pos rfl, filter_cons_of_pos (by simp), filter_cons_of_pos h, map_cons, map_cons, ih]
      rfl

theorem sum_ncols {r m : Nat} {l l' : List (Slot K)} (h : Forall₂ (SlotStep r m) l l') :
    ((((l'.filter Slot.infer).filterMap fun s => s.op.entries)).map Mat.ncols).sum
      = inferDim r m l ∧
    ∀ E ∈ (l'.filter Slot.infer).filterMap (fun s => s.op.entries), E.nrows = r := by
  induction h with
  | nil => simp [inferDim]
  | @cons a b l l' hab _ ih =>
    obtain ⟨h1, h2, h3, h4⟩ := hab
    rw [inferDim_cons]
    cases hi : a.infer
    · rw [h3 hi, filter_cons_of_neg (by simp [hi])]
      simpa using ih
    · obtain ⟨E, hE, hF⟩ := h4 hi
      rw [filter_cons_of_pos (h1.trans hi), filterMap_cons_some (f := fun s : Slot K => s.op.entries) hE]
      refine ⟨?_, ?_⟩
      · rw [map_cons, sum_cons, ih.1, hF.2.2, h2, if_pos rfl]
      · intro E' hE'
        rcases mem_cons.mp hE' with rfl | hE'
        · exact hF.2.1
        · exact ih.2 _ hE'

theorem clearSlots_idem (slots : List (Slot K)) : clearSlots (clearSlots slots) = clearSlots slots := by
  simp only [clearSlots, map_map]
  apply map_congr_left
  intro s _
  cases hi : s.infer <;> simp [hi, Op.clear]

theorem clearSlots_slotStep {r m : Nat} {l l' : List (Slot K)} (h : Forall₂ (SlotStep r m) l l') :
    clearSlots l' = clearSlots l := by
  induction h with
  | nil => rfl
  | @cons a b l l' hab _ ih =>
    obtain ⟨h1, h2, h3, h4⟩ := hab
    simp only [clearSlots, map_cons] at ih ⊢
    rw [ih]
    congr 1
    cases hi : a.infer
    · rw [h3 hi]; simp [hi]
    · rw [h1, hi]; simp [Op.clear, h2]

/-- The outcome of `fit`, success or not: attributes other than operators, dimensions and solver are
untouched, a failed fit leaves every operator to infer cleared, a successful one leaves slots that
differ from the cleared ones only by entries. -/
theorem fit_outcome {S : Type} [Field K] (I : SolverI K S) (M : Model K S) (hM : M.Inv)
    (hint : M.intrusive = false) (states lhs : Arg K) (inputs : Option (Arg K)) (hs : states.WF)
    (hl : lhs.WF) (hin : ∀ a ∈ inputs, a.WF) (hr : 0 < (atleast2d states).1)
    (hI : I.Shaped (atleast2d states).1) (M' : Model K S) (x : Except Err Unit)
    (hfit : M.fit I states lhs inputs = (M', x)) :
    M'.hasInputs = M.hasInputs ∧ M'.intrusive = false ∧ M'.solver.isSome ∧
    (∀ e, x = .error e → M'.slots = clearSlots M.slots) ∧
    (x = .ok () → ∃ m, Forall₂ (SlotStep (atleast2d states).1 m) (clearSlots M.slots) M'.slots) := by
  cases x with
  | ok _ =>
    obtain ⟨s, M1, Z, D, O, m, f1, f2, f3, f4, f5, f6, f7, f8, f9, f10, f11, f12, f13, f14, f15, f16,
      f17, f18, f19, f20, f21⟩ := fit_master I M hM hint states lhs inputs hs hl hin hI M' hfit
    obtain ⟨e1, e2, -, -⟩ := extractLoop_spec (atleast2d states).1 m hr O f11 f12 M1.slots 0
      (by rw [f13, f14]; simp)
    rw [f20]
    exact ⟨f3, f4.trans hint, rfl, by simp, fun _ => ⟨m, by rw [← f2]; exact e2⟩⟩
  | error e =>
    rw [Model.fit, if_neg (by simp [hint])] at hfit
    obtain ⟨s, hsol⟩ := Option.isSome_iff_exists.mp (hM.solver hint)
    rw [Model.fitSolver] at hfit
    generalize hp : M.processFitArgs states lhs inputs = p at hfit
    obtain ⟨M1, x⟩ := p
    obtain ⟨⟨b1, b2, b3, b4⟩, hproc⟩ := process_spec hp
    cases x with
    | error e' =>
      simp only [Prod.mk.injEq] at hfit
      obtain ⟨rfl, -⟩ := hfit
      exact ⟨b2, b3.trans hint, by rw [b4, hsol]; rfl, fun _ _ => b1, by simp⟩
    | ok t =>
      obtain ⟨Q, Z, U⟩ := t
      rw [hsol] at b4
      simp only [b4] at hfit
      generalize hres : I.fit s (M1.dataMatrix Q U) Z = res at hfit
      obtain ⟨s', y⟩ := res
      cases y with
      | error e' =>
        simp only [Prod.mk.injEq] at hfit
        obtain ⟨rfl, -⟩ := hfit
        exact ⟨b2, b3.trans hint, rfl, fun _ _ => b1, by simp⟩
      | ok _ =>
        simp only [Model.refit] at hfit
        rw [if_neg (by rw [b3, hint]; simp)] at hfit
        cases hsolve : I.solve s' with
        | error e' =>
          simp only [hsolve, Prod.mk.injEq] at hfit
          obtain ⟨rfl, -⟩ := hfit
          exact ⟨b2, b3.trans hint, rfl, fun _ _ => b1, by simp⟩
        | ok O =>
          exfalso
          obtain ⟨p1, p2, p3, p4, p5, p6, p7⟩ := hproc Q Z U rfl
          simp only [hsolve] at hfit
          -- the extraction cannot fail
          have hZ : ∀ z ∈ Z, z.length = (atleast2d states).1 := by
            obtain ⟨m, V, -, -, -, -, -, -, -, Z', rfl, -, m9, -⟩ :=
              process_facts M hM states lhs inputs hs hl hin M1 Q Z U hp
            exact m9
          obtain ⟨h1, h2, h3⟩ := hI s (M1.dataMatrix Q U) Z O hZ (by rw [hres]) (by rw [hres]; exact hsolve)
          obtain ⟨e1, -⟩ := extractLoop_spec (atleast2d states).1 (M1.m.getD 0) hr O h1 h2 M1.slots 0
            (by
              rw [h3]
              simp [Model.dataMatrix, inferDim, Model.toInfer, p1, map_map, Function.comp_def])
          simp only [Model.extract, p1, Option.getD_some, Prod.mk.injEq, e1] at hfit
          cases hfit.2


theorem fit_inv {S : Type} [Field K] (I : SolverI K S) (M : Model K S) (hM : M.Inv)
    (states lhs : Arg K) (inputs : Option (Arg K)) (hs : states.WF)
    (hl : lhs.WF) (hin : ∀ a ∈ inputs, a.WF) (hr : 0 < (atleast2d states).1)
    (hI : I.Shaped (atleast2d states).1) : (M.fit I states lhs inputs).1.Inv := by
  cases hint : M.intrusive
  · generalize hf : M.fit I states lhs inputs = p
    obtain ⟨M', x⟩ := p
    obtain ⟨o1, o2, o3, o4, o5⟩ := fit_outcome I M hM hint states lhs inputs hs hl hin hr hI M' x hf
    have hclear : ∀ sl ∈ clearSlots M.slots, sl.op.Good ∧
        (sl.infer = false → sl.op.entries.isSome) := by
      intro sl hsl
      obtain ⟨t, ht, h1, h2, h3, h4⟩ := mem_clearSlots hsl
      cases hi : t.infer
      · rw [h4 hi]; exact ⟨hM.good t ht, hM.known t ht⟩
      · refine ⟨?_, by rw [h1, hi]; simp⟩
        intro E hE; rw [h3 hi] at hE; cases hE
    have hlearn : ∃ sl ∈ clearSlots M.slots, sl.infer = true := by
      obtain ⟨t, ht, hi⟩ := hM.learn hint
      exact ⟨_, mem_map.mpr ⟨t, ht, rfl⟩, by simp [hi]⟩
    cases x with
    | error e =>
      have hsl := o4 e rfl
      refine ⟨?_, ?_, ?_, fun _ => o3, ?_⟩
      · rw [hsl]; exact fun s h => (hclear s h).1
      · rw [o1, hM.inputs, Model.ops, Model.ops, hsl, clearSlots_any]
      · rw [hsl]; exact fun s h => (hclear s h).2
      · rw [hsl]; exact fun _ => hlearn
    | ok _ =>
      obtain ⟨m, hst⟩ := o5 rfl
      refine ⟨?_, ?_, ?_, fun _ => o3, ?_⟩
      · intro sl hsl
        obtain ⟨t, ht, t1, t2, t3, t4⟩ := forall₂_mem_right hst hsl
        cases hi : t.infer
        · rw [t3 hi]; exact (hclear t ht).1
        · obtain ⟨E, hE, hF⟩ := t4 hi
          intro E' hE'
          rw [hE] at hE'
          cases hE'
          have h2 := hF.2.1
          exact ⟨by rw [h2]; exact hr, m, by rw [h2]; exact hF⟩
      · have hk := (slotStep_kinds hst).1
        have : ∀ l : List (Op K), l.any (·.kind.hasInputs) = (l.map Op.kind).any OpKind.hasInputs := by
          intro l; rw [any_map]; rfl
        rw [o1, hM.inputs]
        show _ = (M'.slots.map Slot.op).any _
        rw [this (M'.slots.map Slot.op), hk, ← this, clearSlots_any]
        rfl
      · intro sl hsl hi
        obtain ⟨t, ht, t1, t2, t3, t4⟩ := forall₂_mem_right hst hsl
        rw [t3 (t1 ▸ hi)]
        exact (hclear t ht).2 (t1 ▸ hi)
      · intro _
        obtain ⟨t, ht, hi⟩ := hlearn
        have : true ∈ M'.slots.map Slot.infer := by
          rw [(slotStep_kinds hst).2.1]; exact mem_map.mpr ⟨t, ht, hi⟩
        obtain ⟨b, hb, hbi⟩ := mem_map.mp this
        exact ⟨b, hb, hbi⟩
  · rw [Model.fit, if_pos hint]; exact hM

/-- Solvers whose solution depends only on their settings `cfg` (e.g. the regularizer), which `fit`
does not change, and on the data of the last `fit`. -/
structure SolverI.Memoryless {S C : Type} (I : SolverI K S) (cfg : S → C) : Prop where
  keep : ∀ s D Z, cfg (I.fit s D Z).1 = cfg s
  det : ∀ s s' D Z, cfg s = cfg s' → (I.fit s D Z).2 = (I.fit s' D Z).2 ∧
    ((I.fit s D Z).2 = .ok () → I.solve (I.fit s D Z).1 = I.solve (I.fit s' D Z).1)

/-- `fit` does not change the settings of the solver. -/
theorem fit_cfg {S C : Type} [CommRing K] (I : SolverI K S) (cfg : S → C) (hI : I.Memoryless cfg)
    (M : Model K S) (states lhs : Arg K) (inputs : Option (Arg K))
    (hkeep : (M.processFitArgs states lhs inputs).1.solver = M.solver) :
    (M.fit I states lhs inputs).1.solver.map cfg = M.solver.map cfg := by
  rw [Model.fit]
  split
  · rfl
  · rw [Model.fitSolver]
    generalize M.processFitArgs states lhs inputs = p at hkeep ⊢
    obtain ⟨M1, x⟩ := p
    simp only at hkeep
    cases x with
    | error e => simp only [hkeep]
    | ok t =>
      obtain ⟨Q, Z, U⟩ := t
      cases hs : M1.solver with
      | none => simp only [hs, ← hkeep]
      | some s =>
        have hk := hI.keep s (M1.dataMatrix Q U) Z
        simp only [hs]
        generalize I.fit s (M1.dataMatrix Q U) Z = out at hk ⊢
        obtain ⟨s', y⟩ := out
        rw [← hkeep, hs, Option.map_some, ← hk]
        cases y with
        | error e => rfl
        | ok _ =>
          simp only [Model.refit]
          split
          · rfl
          · cases I.solve s' <;> rfl

def Model.ws {S : Type} (M : Model K S) (s : Option S) : Model K S := { M with solver := s }

theorem clear_ws {S : Type} (M : Model K S) (s : Option S) :
    (M.ws s).clear = (M.clear.1.ws s, M.clear.2) := by
  simp only [Model.clear, Model.ws, Model.ops]
  split
  · rfl
  · split <;> rfl

theorem setStateDim_ws {S : Type} (M : Model K S) (s : Option S) (r : Nat) :
    (M.ws s).setStateDim r = ((M.setStateDim r).1.ws s, (M.setStateDim r).2) := by
  have key : (M.ws s).setStateDim r = if M.ops.any (fun o => o.entries.isSome && o.stateDim != some r)
      then (M.ws s, .error .attribute) else (({ M with r := some r } : Model K S).ws s, .ok ()) := rfl
  rw [key, Model.setStateDim]
  split <;> rfl

theorem setInputDim_ws {S : Type} (M : Model K S) (s : Option S) (m : Nat) :
    (M.ws s).setInputDim m = ((M.setInputDim m).1.ws s, (M.setInputDim m).2) := by
  have key : (M.ws s).setInputDim m = if !M.hasInputs && m != 0 then (M.ws s, .error .attribute)
      else if M.ops.any (fun o => o.kind.hasInputs && o.entries.isSome && o.inputDim != some m) then
        (M.ws s, .error .attribute)
      else (({ M with m := some m } : Model K S).ws s, .ok ()) := rfl
  rw [key, Model.setInputDim]
  split
  · rfl
  · split <;> rfl

theorem checkInputArgs_ws {S α : Type} (M : Model K S) (s : Option S) (u : Option α) :
    (M.ws s).checkInputArgs u = M.checkInputArgs u := rfl

theorem process_ws {S : Type} [CommRing K] (M : Model K S) (s : Option S) (states lhs : Arg K)
    (inputs : Option (Arg K)) : (M.ws s).processFitArgs states lhs inputs
      = ((M.processFitArgs states lhs inputs).1.ws s, (M.processFitArgs states lhs inputs).2) := by
  rw [Model.processFitArgs, Model.processFitArgs, clear_ws]
  generalize M.clear = c
  obtain ⟨M1, x⟩ := c
  cases x with
  | error e => rfl
  | ok _ =>
    have h1 : (if (M1.ws s).r.isNone then (M1.ws s).setStateDim (atleast2d states).1
          else (M1.ws s, Except.ok ()))
        = ((if M1.r.isNone then M1.setStateDim (atleast2d states).1 else (M1, Except.ok ())).1.ws s,
          (if M1.r.isNone then M1.setStateDim (atleast2d states).1 else (M1, Except.ok ())).2) := by
      rw [setStateDim_ws]
      show (if M1.r.isNone then _ else _) = _
      split <;> rfl
    simp only
    rw [h1]
    generalize (if M1.r.isNone then M1.setStateDim (atleast2d states).1 else (M1, Except.ok ())) = c
    obtain ⟨M2, x⟩ := c
    cases x with
    | error e => rfl
    | ok _ =>
      have hr : (M2.ws s).r = M2.r := rfl
      have hi : (M2.ws s).hasInputs = M2.hasInputs := rfl
      have hsl : (M2.ws s).slots = M2.slots := rfl
      have hmm : (M2.ws s).m = M2.m := rfl
      simp only [hr, checkInputArgs_ws, hi, hsl, hmm]
      split
      · rfl
      · split
        · rfl
        · split
          · rfl
          · split
            · rfl
            · split
              · cases inputs with
                | none => rfl
                | some a =>
                  simp only
                  have h2 : (if M2.m.getD 0 = 0 then (M2.ws s).setInputDim (atleast2d a).1
                        else (M2.ws s, Except.ok ()))
                      = ((if M2.m.getD 0 = 0 then M2.setInputDim (atleast2d a).1
                            else (M2, Except.ok ())).1.ws s,
                        (if M2.m.getD 0 = 0 then M2.setInputDim (atleast2d a).1
                            else (M2, Except.ok ())).2) := by
                    rw [setInputDim_ws]
                    split <;> rfl
                  rw [h2]
                  generalize (if M2.m.getD 0 = 0 then M2.setInputDim (atleast2d a).1
                    else (M2, Except.ok ())) = c
                  obtain ⟨M3, x⟩ := c
                  cases x with
                  | error e => rfl
                  | ok _ =>
                    have hsl : (M3.ws s).slots = M3.slots := rfl
                    have hmm : (M3.ws s).m = M3.m := rfl
                    simp only [hsl, hmm]
                    split
                    · rfl
                    · split
                      · rfl
                      · split <;> rfl
              · split <;> rfl

/-- Two model objects that differ at most in their learned entries, dimensions and solver state. -/
structure Model.Sim {S : Type} (M N : Model K S) : Prop where
  slots : clearSlots M.slots = clearSlots N.slots
  inputs : M.hasInputs = N.hasInputs
  intrusive : M.intrusive = N.intrusive

theorem clear_eq {S : Type} (M : Model K S) : M.clear =
    match stateDimCheck ((clearSlots M.slots).map Slot.op) with
    | .error e => ({ M with slots := clearSlots M.slots }, .error e)
    | .ok r => match inputDimCheck ((clearSlots M.slots).map Slot.op) with
      | .error e => ({ M with slots := clearSlots M.slots, r := r }, .error e)
      | .ok m => ({ M with slots := clearSlots M.slots, r := r, m := m }, .ok ()) := rfl

theorem clear_sim {S : Type} {M N : Model K S} (h : M.Sim N) :
    M.clear.2 = N.clear.2 ∧ M.clear.1.slots = N.clear.1.slots ∧
    (M.clear.2 = .ok () → M.clear.1 = N.clear.1.ws M.solver) := by
  obtain ⟨h1, h2, h3⟩ := h
  rw [clear_eq, clear_eq, h1]
  split
  · exact ⟨rfl, rfl, by simp⟩
  · split
    · exact ⟨rfl, rfl, by simp⟩
    · exact ⟨rfl, rfl, fun _ => by simp [Model.ws, h2, h3]⟩

theorem clear_clear {S : Type} {M X : Model K S} (h : M.clear = (X, .ok ())) :
    X.clear = (X, .ok ()) := by
  rw [clear_eq] at h
  split at h
  · simp at h
  · rename_i r hr
    split at h
    · simp at h
    · rename_i m hm
      simp only [Prod.mk.injEq, and_true] at h
      subst h
      rw [clear_eq]
      simp only [clearSlots_idem, hr, hm]

theorem process_clear {S : Type} [CommRing K] {M X : Model K S} (h : M.clear = (X, .ok ()))
    (states lhs : Arg K) (inputs : Option (Arg K)) :
    M.processFitArgs states lhs inputs = X.processFitArgs states lhs inputs := by
  rw [Model.processFitArgs, Model.processFitArgs, h, clear_clear h]

theorem process_sim {S : Type} [CommRing K] {M N : Model K S} (h : M.Sim N) (states lhs : Arg K)
    (inputs : Option (Arg K)) :
    (M.processFitArgs states lhs inputs).2 = (N.processFitArgs states lhs inputs).2 ∧
    (M.processFitArgs states lhs inputs).1.slots = (N.processFitArgs states lhs inputs).1.slots ∧
    (∀ x, (M.processFitArgs states lhs inputs).2 = .ok x → (M.processFitArgs states lhs inputs).1
      = (N.processFitArgs states lhs inputs).1.ws M.solver) := by
  obtain ⟨h1, h2, h3⟩ := clear_sim h
  rcases hM : M.clear with ⟨X, x⟩
  rcases hN : N.clear with ⟨Y, y⟩
  rw [hM, hN] at h1 h2 h3
  simp only at h1 h2 h3
  subst h1
  cases x with
  | error e =>
    have e1 : M.processFitArgs states lhs inputs = (X, .error e) := by
      rw [Model.processFitArgs, hM]
    have e2 : N.processFitArgs states lhs inputs = (Y, .error e) := by
      rw [Model.processFitArgs, hN]
    rw [e1, e2]
    exact ⟨rfl, h2, by simp⟩
  | ok _ =>
    have hX := h3 rfl
    rw [process_clear hM, process_clear hN, hX, process_ws]
    exact ⟨rfl, rfl, fun _ _ => rfl⟩

theorem fit_sim {S C : Type} [CommRing K] (I : SolverI K S) (cfg : S → C) (hI : I.Memoryless cfg)
    {M N : Model K S} (h : M.Sim N) (hcfg : M.solver.map cfg = N.solver.map cfg) (hint : M.intrusive = false) (hsM : M.solver.isSome) (hsN : N.solver.isSome)
    (states lhs : Arg K) (inputs : Option (Arg K))
    (hkeepM : (M.processFitArgs states lhs inputs).1.solver = M.solver)
    (hkeepN : (N.processFitArgs states lhs inputs).1.solver = N.solver)
    (hintN : (N.processFitArgs states lhs inputs).1.intrusive = N.intrusive) :
    (M.fit I states lhs inputs).2 = (N.fit I states lhs inputs).2 ∧
    (M.fit I states lhs inputs).1.slots = (N.fit I states lhs inputs).1.slots ∧
    ((M.fit I states lhs inputs).2 = .ok () →
      (M.fit I states lhs inputs).1.r = (N.fit I states lhs inputs).1.r ∧
      (M.fit I states lhs inputs).1.m = (N.fit I states lhs inputs).1.m) := by
  obtain ⟨p1, p2, p3⟩ := process_sim h states lhs inputs
  obtain ⟨s, hs⟩ := Option.isSome_iff_exists.mp hsM
  obtain ⟨t, ht⟩ := Option.isSome_iff_exists.mp hsN
  have hint' : N.intrusive = false := h.intrusive ▸ hint
  rw [Model.fit, Model.fit, if_neg (by simp [hint]), if_neg (by simp [hint']), Model.fitSolver,
    Model.fitSolver]
  rcases hM : M.processFitArgs states lhs inputs with ⟨X, x⟩
  rcases hN : N.processFitArgs states lhs inputs with ⟨Y, y⟩
  rw [hM, hN] at p1 p2 p3
  rw [hM] at hkeepM
  rw [hN] at hkeepN hintN
  simp only at p1 p2 p3 hkeepM hkeepN hintN
  subst p1
  cases x with
  | error e => exact ⟨rfl, p2, by simp⟩
  | ok v =>
    obtain ⟨Q, Z, U⟩ := v
    have hX := p3 _ rfl
    subst hX
    have hkeepM : (Y.ws M.solver).solver = some s := hs
    rw [ht] at hkeepN
    rw [hint'] at hintN
    have hd : (Y.ws M.solver).dataMatrix Q U = Y.dataMatrix Q U := rfl
    simp only [hkeepM, hkeepN, hd]
    obtain ⟨m1, m2⟩ := hI.det s t (Y.dataMatrix Q U) Z (by rw [hs, ht] at hcfg; simpa using hcfg)
    rcases hs' : I.fit s (Y.dataMatrix Q U) Z with ⟨s', x⟩
    rcases ht' : I.fit t (Y.dataMatrix Q U) Z with ⟨t', y⟩
    rw [hs', ht'] at m1 m2
    simp only at m1 m2
    subst m1
    cases x with
    | error e => exact ⟨rfl, rfl, by simp⟩
    | ok _ =>
      simp only [Model.refit, Model.ws, hintN, m2 rfl, Bool.false_eq_true, if_false]
      cases I.solve t' with
      | error e => exact ⟨rfl, rfl, by simp⟩
      | ok O => exact ⟨rfl, rfl, fun _ => ⟨rfl, rfl⟩⟩

end Opinf
