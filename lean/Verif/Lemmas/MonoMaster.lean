import Verif.Lemmas.MonoProcess

/-!
# A successful `fit`, step by step
-/

namespace Opinf

open List

variable {K : Type}

/-- The columns of the array have the declared length (true of every numpy array). -/
def Arg.WF (a : Arg K) : Prop := ∀ c ∈ (atleast2d a).2, c.length = (atleast2d a).1

/-- Shape contract of a solver: after being fitted to `k × d` data and an `r × k` left-hand side, a
solution is an `r × d` matrix. -/
def SolverI.Shaped {S : Type} (I : SolverI K S) (r : Nat) : Prop :=
  ∀ s D Z O, (∀ z ∈ Z, z.length = r) → (I.fit s D Z).2 = .ok () → I.solve (I.fit s D Z).1 = .ok O →
    O.WF ∧ O.nrows = r ∧ O.ncols = D.ncols

/-- The input passed for snapshot `j`. -/
def inputAt (inputs : Option (Arg K)) (j : Nat) : Option (List K) :=
  inputs.map fun a => (atleast2d a).2.getD j []

theorem Op.Good.cal {o : Op K} (h : o.Good) {E : Mat K} (hE : o.entries = some E) {n m : Nat}
    (hn : E.nrows = n) (hm : o.kind.hasInputs = true → ∀ d, o.inputDim = some d → d = m) :
    o.Cal n m := by
  obtain ⟨hpos, m', hF⟩ := h E hE
  refine ⟨E, hE, ?_⟩
  rw [hn] at hF
  by_cases hi : o.kind.hasInputs = true
  · have hd := hm hi
    obtain ⟨h1, h2, h3⟩ := hF
    refine ⟨h1, h2, ?_⟩
    cases hk : o.kind with
    | inp =>
      rw [hk] at h3
      simp only [OpKind.dim] at h3 ⊢
      exact hd _ (by simp [Op.inputDim, hE, hk])
    | stateInp =>
      rw [hk] at h3
      simp only [OpKind.dim] at h3 ⊢
      have : m' = m := by
        apply hd
        simp only [Op.inputDim, hE, hk, Option.bind_some, h3, hn]
        rw [Nat.mul_div_cancel_left m' (by omega)]
      rw [h3, this]
    | const => rw [hk] at hi; simp [OpKind.hasInputs] at hi
    | lin => rw [hk] at hi; simp [OpKind.hasInputs] at hi
    | kron k => rw [hk] at hi; simp [OpKind.hasInputs] at hi
  · exact fits_ignores_input _ (by simpa using hi) _ _ _ _ hF

theorem forall₂_mem_right {α β : Type*} {R : α → β → Prop} {l : List α} {l' : List β}
    (h : Forall₂ R l l') {b : β} (hb : b ∈ l') : ∃ a ∈ l, R a b := by
  induction h with
  | nil => cases hb
  | cons hab _ ih =>
    rcases mem_cons.mp hb with rfl | hb
    · exact ⟨_, mem_cons_self, hab⟩
    · obtain ⟨a, ha, hR⟩ := ih hb
      exact ⟨a, mem_cons_of_mem _ ha, hR⟩

theorem slotStep_kinds {r m : Nat} {l l' : List (Slot K)} (h : Forall₂ (SlotStep r m) l l') :
    (l'.map Slot.op).map Op.kind = (l.map Slot.op).map Op.kind ∧
    l'.map Slot.infer = l.map Slot.infer ∧
    l'.filter (fun s => !s.infer) = l.filter (fun s => !s.infer) := by
  induction h with
  | nil => simp
  | @cons a b l l' hab _ ih =>
    obtain ⟨h1, h2, h3, h4⟩ := hab
    refine ⟨by simp [h2, ih.1], by simp [h1, ih.2.1], ?_⟩
    cases hi : a.infer
    · rw [h3 hi]; simp [hi, ih.2.2]
    · simp [h1, hi, ih.2.2]

/-- What `_process_fit_arguments` returns when it succeeds (the cases with and without inputs give the
same kind of facts). -/
theorem process_facts {S : Type} [Field K] (M : Model K S) (hM : M.Inv) (states lhs : Arg K)
    (inputs : Option (Arg K)) (hs : states.WF) (hl : lhs.WF) (hin : ∀ a ∈ inputs, a.WF)
    (M1 : Model K S) (Q Z : List (List K)) (U : Option (Nat × List (List K)))
    (hp : M.processFitArgs states lhs inputs = (M1, .ok (Q, Z, U))) :
    ∃ (m : Nat) (V : List (List K)), M1.m = some m ∧
      (M.hasInputs = true → ∃ a, inputs = some a ∧ (atleast2d a).1 = m) ∧
      V.length = Q.length ∧
      (∀ o ∈ M1.ops, ∀ E, o.entries = some E → o.Cal (atleast2d states).1 m) ∧
      (∀ o ∈ M1.ops, o.kind.hasInputs = true → U.map Prod.snd = some V) ∧
      (∀ j, j < Q.length → ∀ o ∈ M1.ops, InputOK o.kind m (inputAt inputs j)) ∧
      (∀ j, j < Q.length → ∀ o ∈ M1.ops, o.kind.hasInputs = true →
        inputAt inputs j = some (V.getD j [])) ∧
      (∃ Z', Z = Z' ∧ Z'.length = Q.length ∧ (∀ z ∈ Z', z.length = (atleast2d states).1) ∧
        ∀ j, j < Q.length → ∀ i, (Z'.getD j []).getD i 0
          = ((atleast2d lhs).2.getD j []).getD i 0
            - knownSum M1.slots (Q.getD j []) (some (V.getD j [])) i) := by
  obtain ⟨⟨b1, b2, b3, b4⟩, hproc⟩ := process_spec hp
  obtain ⟨p1, p2, p3, p4, p5, p6, p7⟩ := hproc Q Z U rfl
  have hlen1 : ∀ z ∈ (atleast2d lhs).2, z.length = (atleast2d states).1 := by
    rw [← p3]; exact hl
  have hgood : ∀ sl ∈ M1.slots, sl.op.Good := by
    intro sl hsl
    rw [b1] at hsl
    obtain ⟨t, ht, h1, h2, h3, h4⟩ := mem_clearSlots hsl
    cases hi : t.infer
    · rw [h4 hi]; exact hM.good t ht
    · intro E hE; rw [h3 hi] at hE; cases hE
  have hknown : ∀ sl ∈ M1.slots, sl.infer = false → ∃ E, sl.op.entries = some E := by
    intro sl hsl hi
    rw [b1] at hsl
    obtain ⟨t, ht, h1, h2, h3, h4⟩ := mem_clearSlots hsl
    rw [h4 (h1 ▸ hi)]
    exact Option.isSome_iff_exists.mp (hM.known t ht (h1 ▸ hi))
  have hany : M1.ops.any (·.kind.hasInputs) = M.hasInputs := by
    rw [hM.inputs, Model.ops, Model.ops, b1, clearSlots_any]
  cases hi : M.hasInputs
  · obtain ⟨q1, q2, q3⟩ := p7 hi
    have hno : ∀ o ∈ M1.ops, o.kind.hasInputs = false := by
      rw [hi] at hany
      intro o ho
      simpa using any_eq_false.mp hany o ho
    have hcal : ∀ o ∈ M1.ops, ∀ E, o.entries = some E → o.Cal (atleast2d states).1 0 := by
      intro o ho E hE
      obtain ⟨sl, hsl, rfl⟩ := mem_map.mp ho
      exact (hgood sl hsl).cal hE (p5 _ ho E hE) (by rw [hno _ ho]; simp)
    refine ⟨0, replicate Q.length [], q2 (by rw [hany, hi]), by simp, by simp, hcal,
      ?_, ?_, ?_, ?_⟩
    · intro o ho h; rw [hno o ho] at h; cases h
    · intro j _ o ho h; rw [hno o ho] at h; cases h
    · intro j _ o ho h; rw [hno o ho] at h; cases h
    · obtain ⟨Z', z1, z2, z3, z4⟩ := subKnown_spec (atleast2d states).1 0 (atleast2d states).2
        (replicate (atleast2d states).2.length []) inputs hs (by simp) M1.slots
        (by
          intro sl hsl hsi
          obtain ⟨E, hE⟩ := hknown sl hsl hsi
          exact hcal _ (mem_map.mpr ⟨sl, hsl, rfl⟩) E hE)
        (by
          intro sl hsl _ h
          rw [hno _ (mem_map.mpr ⟨sl, hsl, rfl⟩)] at h; cases h)
        (atleast2d lhs).2 hlen1 (by rw [p4, p2])
      rw [q3] at z1
      simp only [Except.ok.injEq] at z1
      refine ⟨Z', z1, ?_, z3, ?_⟩
      · rw [p2]; exact z2
      · intro j hj i
        rw [p2] at hj ⊢
        exact z4 j hj i
  · obtain ⟨a, ha, q1, q2, q3, q4, q5⟩ := p6 hi
    have haw := hin a (by rw [ha]; rfl)
    have hcal : ∀ o ∈ M1.ops, ∀ E, o.entries = some E →
        o.Cal (atleast2d states).1 (atleast2d a).1 := by
      intro o ho E hE
      obtain ⟨sl, hsl, rfl⟩ := mem_map.mp ho
      exact (hgood sl hsl).cal hE (p5 _ ho E hE) (q4 _ ho)
    have hat : ∀ j, inputAt inputs j = some ((atleast2d a).2.getD j []) := by
      intro j; rw [ha]; rfl
    refine ⟨(atleast2d a).1, (atleast2d a).2, q2, fun _ => ⟨a, ha, rfl⟩, q3, hcal, ?_, ?_, ?_, ?_⟩
    · intro o ho h; rw [q1]; rfl
    · intro j hj o ho h
      refine ⟨_, hat j, ?_⟩
      rw [getD_eq_getElem _ _ (by rw [q3]; exact hj)]
      exact haw _ (getElem_mem _)
    · intro j hj o ho h
      exact hat j
    · obtain ⟨Z', z1, z2, z3, z4⟩ := subKnown_spec (atleast2d states).1 (atleast2d a).1
        (atleast2d states).2 (atleast2d a).2 (some (.mat (atleast2d a).1 (atleast2d a).2)) hs
        (by rw [q3, p2]) M1.slots
        (by
          intro sl hsl hsi
          obtain ⟨E, hE⟩ := hknown sl hsl hsi
          exact hcal _ (mem_map.mpr ⟨sl, hsl, rfl⟩) E hE)
        (by intro sl hsl _ h; exact ⟨rfl, haw⟩)
        (atleast2d lhs).2 hlen1 (by rw [p4, p2])
      rw [q5] at z1
      simp only [Except.ok.injEq] at z1
      refine ⟨Z', z1, ?_, z3, ?_⟩
      · rw [p2]; exact z2
      · intro j hj i
        rw [p2] at hj ⊢
        exact z4 j hj i

/-- All facts about a successful `fit` of a model with operators to infer. -/
theorem fit_master {S : Type} [Field K] (I : SolverI K S) (M : Model K S) (hM : M.Inv)
    (hint : M.intrusive = false) (states lhs : Arg K) (inputs : Option (Arg K)) (hs : states.WF)
    (hl : lhs.WF) (hin : ∀ a ∈ inputs, a.WF)
    (hI : I.Shaped (atleast2d states).1) (M' : Model K S)
    (hfit : M.fit I states lhs inputs = (M', .ok ())) :
    ∃ (s : S) (M1 : Model K S) (Z : List (List K)) (D O : Mat K) (m : Nat),
      M.solver = some s ∧ M1.slots = clearSlots M.slots ∧ M1.hasInputs = M.hasInputs ∧
      M1.intrusive = M.intrusive ∧ M1.r = some (atleast2d states).1 ∧ M1.m = some m ∧
      (M.hasInputs = true → ∃ a, inputs = some a ∧ (atleast2d a).1 = m) ∧
      (∀ o ∈ M1.ops, ∀ E, o.entries = some E → o.Cal (atleast2d states).1 m) ∧
      (I.fit s D Z).2 = .ok () ∧ I.solve (I.fit s D Z).1 = .ok O ∧
      O.WF ∧ O.nrows = (atleast2d states).1 ∧ O.ncols = D.ncols ∧
      D.ncols = inferDim (atleast2d states).1 m M1.slots ∧
      D.nrows = (atleast2d states).2.length ∧ D.rows.length = (atleast2d states).2.length ∧
      Z.length = (atleast2d states).2.length ∧ (∀ z ∈ Z, z.length = (atleast2d states).1) ∧
      (∀ j, j < (atleast2d states).2.length →
        D.rows.getD j [] = M1.toInfer.flatMap (fun o =>
          o.dataCol ((atleast2d states).2.getD j []) ((inputAt inputs j).getD [])) ∧
        (∀ o ∈ M1.ops, InputOK o.kind m (inputAt inputs j)) ∧
        ∀ i, (Z.getD j []).getD i 0 = ((atleast2d lhs).2.getD j []).getD i 0
          - knownSum M1.slots ((atleast2d states).2.getD j []) (inputAt inputs j) i) ∧
      M' = { M1 with solver := some (I.fit s D Z).1,
                     slots := (extractLoop (atleast2d states).1 m O 0 M1.slots).1 } ∧
      (extractLoop (atleast2d states).1 m O 0 M1.slots).2 = .ok () := by
  rw [Model.fit, if_neg (by simp [hint])] at hfit
  obtain ⟨s, hsol⟩ := Option.isSome_iff_exists.mp (hM.solver hint)
  rw [Model.fitSolver] at hfit
  generalize hp : M.processFitArgs states lhs inputs = p at hfit
  obtain ⟨M1, x⟩ := p
  obtain ⟨⟨b1, b2, b3, b4⟩, hproc⟩ := process_spec hp
  cases x with
  | error e => simp at hfit
  | ok t =>
    obtain ⟨Q, Z, U⟩ := t
    obtain ⟨p1, p2, p3, p4, p5, p6, p7⟩ := hproc Q Z U rfl
    rw [hsol] at b4
    simp only [b4] at hfit
    have main := process_facts M hM states lhs inputs hs hl hin M1 Q Z U hp
    obtain ⟨m, V, m1, m2, m3, m4, m5, m6, m7, Z', hZZ, m8, m9, m10⟩ := main
    subst hZZ
    set D := M1.dataMatrix Q U with hD
    -- the solver
    generalize hres : I.fit s D Z = res at hfit
    obtain ⟨s', y⟩ := res
    simp only at hfit
    cases y with
    | error e => simp at hfit
    | ok _ =>
      simp only [Model.refit] at hfit
      rw [if_neg (by rw [b3, hint]; simp)] at hfit
      cases hsolve : I.solve s' with
      | error e => simp [hsolve] at hfit
      | ok O =>
        simp only [hsolve, Model.extract, p1, m1, Option.getD_some, Prod.mk.injEq] at hfit
        have hshape := hI s D Z O m9 (by rw [hres]) (by rw [hres]; exact hsolve)
        have htoInfer : ∀ o ∈ M1.toInfer, o.hasInputs = true → U.map Prod.snd = some V := by
          intro o ho h
          simp only [Model.toInfer, mem_map, mem_filter] at ho
          obtain ⟨sl, ⟨hsl, -⟩, rfl⟩ := ho
          exact m5 sl.op (mem_map.mpr ⟨sl, hsl, rfl⟩) h
        have hDrows : D.rows.length = Q.length := by
          rcases Nat.eq_zero_or_pos Q.length with h0 | hpos
          · have hQ : Q = [] := by simpa using h0
            simp only [hD, Model.dataMatrix, hQ]
            have : ∀ bl : List (List (List K)), hstack 0 bl = [] := by
              intro bl
              induction bl with
              | nil => rfl
              | cons b bl ih => simp only [hstack, foldr_cons] at ih ⊢; rw [ih]; simp
            rw [length_nil, this]
            rfl
          · exact (dataMatrix_row M1 Q V U m3 htoInfer 0 hpos).1
        refine ⟨s, M1, Z, D, O, m, hsol, b1, b2, b3, p1, m1, m2, m4, by rw [hres], by
          rw [hres]; exact hsolve, hshape.1, hshape.2.1, hshape.2.2, ?_, ?_, ?_, ?_, m9, ?_, ?_, hfit.2⟩
        · simp [hD, Model.dataMatrix, inferDim, Model.toInfer, p1, m1, map_map, Function.comp_def]
        · simp [hD, Model.dataMatrix, p2]
        · rw [hDrows, p2]
        · rw [m8, p2]
        · intro j hj
          rw [← p2] at hj ⊢
          refine ⟨?_, m6 j hj, ?_⟩
          · rw [(dataMatrix_row M1 Q V U m3 htoInfer j hj).2]
            apply flatMap_congr
            intro o ho
            by_cases h : o.hasInputs = true
            · simp only [Model.toInfer, mem_map, mem_filter] at ho
              obtain ⟨sl, ⟨hsl, -⟩, rfl⟩ := ho
              rw [m7 j hj sl.op (mem_map.mpr ⟨sl, hsl, rfl⟩) h]
              rfl
            · exact dataCol_ignores_input o (by simpa using h) _ _ _
          · intro i
            rw [m10 j hj i]
            congr 1
            simp only [knownSum]
            congr 1
            apply map_congr_left
            intro sl hsl
            have hmem : sl.op ∈ M1.ops := mem_map.mpr ⟨sl, (mem_filter.mp hsl).1, rfl⟩
            by_cases h : sl.op.kind.hasInputs = true
            · rw [m7 j hj sl.op hmem h]
            · rw [sl.op.val_ignores_input (by simpa using h) _ (some (V.getD j [])) (inputAt inputs j)]
        · rw [← hfit.1, hres, p1, m1]

end Opinf
