import Verif.Lemmas.OpStack
import Verif.Props.FitDiscrete
import Verif.Props.ModelCopy

/-!
# C76: training recovers the model that generated the data
-/

namespace Opinf

open List

variable {K : Type}

/-! ### Specification -/

/-- The snapshots determine the operators to learn: no nonzero linear functional on the data vectors (the operators of
the classes `kinds` have `d` columns together) vanishes at all of them. -/
def Informative [CommSemiring K] (kinds : List OpKind) (d k : Nat) (q : Nat → List K) (u : Nat → Option (List K)) : Prop :=
  ∀ x : List K, x.length = d → (∀ j < k, dot x (dataVector kinds (q j) ((u j).getD [])) = 0) → ∀ y ∈ x, y = 0

/-- `N` is a trained model with the operators of `M`: the same classes in the same order, and the same known
operators. -/
def Completes {S S' : Type} (M : Model K S) (N : Model K S') : Prop :=
  Forall₂ (fun (s : Slot K) (o : Op K) => s.op.kind = o.kind ∧ (s.infer = false → s.op = o)) M.slots N.ops

/-! ### Helper lemmas -/

theorem vsub_zero_mem [CommRing K] {a b : List K} (h : a.length = b.length) (h0 : ∀ y ∈ vsub a b, y = 0) : a = b := by
  refine vsub_eq_zero a b h (eq_replicate_iff.2 ⟨?_, h0⟩)
  rw [length_vsub, h, min_self]

theorem Op.Cal.of_no_input {o : Op K} {r m m' : Nat} (h : o.Cal r m) (hi : o.kind.hasInputs = false) : o.Cal r m' := by
  obtain ⟨E, hE, h1, h2, h3⟩ := h
  exact ⟨E, hE, h1, h2, h3.trans (dim_ignores_input _ hi _ _ _)⟩

theorem sum_filter_halves [CommSemiring K] {α : Type} (l : List α) (p : α → Bool) (f : α → K) :
    (l.map f).sum = ((l.filter p).map f).sum + ((l.filter fun a => !p a).map f).sum := by
  induction l with
  | nil => simp
  | cons a l ih =>
    cases h : p a
    · rw [filter_cons_of_neg (by simp [h]), filter_cons_of_pos (by simp [h])]
      simp only [map_cons, sum_cons, ih]
      rw [← add_assoc, ← add_assoc, add_comm (f a)]
    · rw [filter_cons_of_pos (by simp [h]), filter_cons_of_neg (by simp [h])]
      simp only [map_cons, sum_cons, ih]
      rw [add_assoc]

/-- The right-hand side splits into the learned and the known operators. -/
theorem rhsVal_split [CommSemiring K] {r m : Nat} (slots : List (Slot K)) (h : ∀ s ∈ slots, s.op.Cal r m) (q : List K)
    (u : Option (List K)) :
    rhsVal (slots.map Slot.op) r q u = vadd (rhsVal ((slots.filter Slot.infer).map Slot.op) r q u)
      (rhsVal ((slots.filter fun s => !s.infer).map Slot.op) r q u) := by
  have hc : ∀ l : List (Slot K), (∀ s ∈ l, s ∈ slots) → ∀ o ∈ l.map Slot.op, o.Cal r m := by
    intro l hl o ho
    obtain ⟨s, hs, rfl⟩ := mem_map.1 ho
    exact h s (hl s hs)
  have c1 := hc slots fun s hs => hs
  have c2 := hc (slots.filter Slot.infer) fun s hs => (mem_filter.1 hs).1
  have c3 := hc (slots.filter fun s => !s.infer) fun s hs => (mem_filter.1 hs).1
  have l1 := length_rhsVal _ r m c1 q u
  have l2 := length_rhsVal _ r m c2 q u
  have l3 := length_rhsVal _ r m c3 q u
  have entry : ∀ ops : List (Op K), (∀ o ∈ ops, o.Cal r m) → ∀ i, i < r →
      (rhsVal ops r q u).getD i 0 = (ops.map fun o => (o.val q u).getD i 0).sum := by
    intro ops hops i hi
    rw [rhsVal, foldl_vadd_getD (r := r) _ (by
      intro l hl
      obtain ⟨o, ho, rfl⟩ := mem_map.1 hl
      exact (hops o ho).length_val q u) _ (by simp) hi,
      getD_eq_getElem (replicate r 0) _ (by simpa using hi), getElem_replicate, zero_add, map_map]
    rfl
  refine ext_getElem (by rw [vadd, length_zipWith, l1, l2, l3, min_self]) fun i h1 h2 => ?_
  have hi : i < r := by rw [← l1]; exact h1
  rw [← getD_eq_getElem (rhsVal (slots.map Slot.op) r q u) 0 h1, entry _ c1 i hi]
  simp only [vadd, getElem_zipWith]
  rw [← getD_eq_getElem (rhsVal ((slots.filter Slot.infer).map Slot.op) r q u) 0 (by rw [l2]; exact hi),
    ← getD_eq_getElem (rhsVal ((slots.filter fun s => !s.infer).map Slot.op) r q u) 0 (by rw [l3]; exact hi),
    entry _ c2 i hi, entry _ c3 i hi, map_map, map_map, map_map]
  exact sum_filter_halves _ _ _

theorem vadd_right_cancel' [CommRing K] {a b c : List K} (h1 : a.length = c.length) (h2 : b.length = c.length)
    (h : vadd a c = vadd b c) : a = b := by
  induction a generalizing b c with
  | nil =>
    cases c with
    | nil => exact (length_eq_zero_iff.1 h2).symm
    | cons _ _ => simp at h1
  | cons x a ih =>
    cases c with
    | nil => simp at h1
    | cons z c =>
      cases b with
      | nil => simp at h2
      | cons y b =>
        simp only [vadd, zipWith_cons_cons, cons.injEq] at h
        rw [ih (by simpa using h1) (by simpa using h2) h.2, add_right_cancel h.1]

variable [Field K] [LinearOrder K] [IsStrictOrderedRing K]

/-- The heart of C76: among operators that give the same outputs at informative snapshots there is no choice. -/
theorem recover_core {S S' : Type} (M M' : Model K S) (N : Model K S') (m : Nat) (states lhs : Arg K)
    (inputs : Option (Arg K)) (hs : states.WF) (O : Mat K) (y w : Nat → List K)
    (hopt : FitOptimal M M' states lhs inputs (fun _ => 0) O y w)
    (hpos : 0 < (atleast2d states).2.length)
    (hstep : Forall₂ (fun s s' : Slot K => s'.infer = s.infer ∧ s'.op.kind = s.op.kind ∧ (s.infer = false → s' = s))
      M.slots M'.slots)
    (hcal' : ∀ o ∈ M'.ops, o.Cal (atleast2d states).1 m) (hcal : ∀ o ∈ N.ops, o.Cal (atleast2d states).1 m)
    (hN : Completes M N)
    (hin : ∀ o ∈ N.ops, ∀ j < (atleast2d states).2.length, InputOK o.kind m (inputAt inputs j))
    (hdata : ∀ j < (atleast2d states).2.length,
      N.rhs ((atleast2d states).2.getD j []) (inputAt inputs j) = .ok ((atleast2d lhs).2.getD j []))
    (hinf : Informative M.toInfer (M.toInfer.map fun o => o.dim (atleast2d states).1 m).sum
      (atleast2d states).2.length (fun j => (atleast2d states).2.getD j []) (inputAt inputs)) : M'.ops = N.ops := by
  set r := (atleast2d states).1 with hr
  set k := (atleast2d states).2.length with hkdef
  -- the slots with the operators of `N`
  obtain ⟨B, hB⟩ : ∃ B : List (Slot K), B = zipWith (fun s o => ⟨o, s.infer⟩) M.slots N.ops := ⟨_, rfl⟩
  have hlen := hN.length_eq
  have hBops : B.map Slot.op = N.ops := by
    rw [hB, map_zipWith]
    clear * - hN
    rw [Completes] at hN
    generalize M.slots = sl at hN
    generalize N.ops = ol at hN
    induction hN with
    | nil => rfl
    | cons _ _ ih => rw [zipWith_cons_cons, ih]
  have hMB : Forall₂ (fun s b : Slot K => b.infer = s.infer ∧ b.op.kind = s.op.kind ∧ (s.infer = false → b = s)) M.slots B := by
    rw [hB]
    clear * - hN
    rw [Completes] at hN
    generalize M.slots = sl at hN
    generalize N.ops = ol at hN
    induction hN with
    | nil => exact .nil
    | cons hab _ ih =>
      rw [zipWith_cons_cons]
      refine .cons ⟨rfl, hab.1.symm, fun h => ?_⟩ ih
      rw [← hab.2 h]
  have hkn : ∀ (l l' : List (Slot K)), Forall₂ (fun s b : Slot K => b.infer = s.infer ∧ b.op.kind = s.op.kind ∧
      (s.infer = false → b = s)) l l' → (l'.filter fun s => !s.infer) = l.filter fun s => !s.infer := by
    intro l l' h
    induction h with
    | nil => rfl
    | @cons a b l l' hab _ ih =>
      cases hi : a.infer
      · rw [hab.2.2 hi, filter_cons_of_pos (by simp [hi]), filter_cons_of_pos (by simp [hi]), ih]
      · rw [filter_cons_of_neg (by simp [hi, hab.1]), filter_cons_of_neg (by simp [hi]), ih]
  have hki : ∀ (l l' : List (Slot K)), Forall₂ (fun s b : Slot K => b.infer = s.infer ∧ b.op.kind = s.op.kind ∧
      (s.infer = false → b = s)) l l' →
      ((l'.filter Slot.infer).map Slot.op).map Op.kind = (l.filter Slot.infer).map fun s => s.op.kind := by
    intro l l' h
    induction h with
    | nil => rfl
    | @cons a b l l' hab _ ih =>
      cases hi : a.infer
      · rw [filter_cons_of_neg (by simp [hi, hab.1]), filter_cons_of_neg (by simp [hi]), ih]
      · rw [filter_cons_of_pos (by simp [hi, hab.1]), filter_cons_of_pos (by simp [hi]), map_cons, map_cons, map_cons, ih,
          hab.2.1]
  have kA := hki _ _ hstep
  have kB := hki _ _ hMB
  have nA := hkn _ _ hstep
  have nB := hkn _ _ hMB
  have cA : ∀ s ∈ M'.slots, s.op.Cal r m := fun s hs => hcal' _ (mem_map_of_mem hs)
  have cB : ∀ s ∈ B, s.op.Cal r m := fun s hs => hcal _ (by rw [← hBops]; exact mem_map_of_mem hs)
  have cA1 : ∀ o ∈ (M'.slots.filter Slot.infer).map Slot.op, o.Cal r m := by
    intro o ho
    obtain ⟨s, hs, rfl⟩ := mem_map.1 ho
    exact cA s (mem_filter.1 hs).1
  have cB1 : ∀ o ∈ (B.filter Slot.infer).map Slot.op, o.Cal r m := by
    intro o ho
    obtain ⟨s, hs, rfl⟩ := mem_map.1 ho
    exact cB s (mem_filter.1 hs).1
  have cB0 : ∀ o ∈ (B.filter fun s => !s.infer).map Slot.op, o.Cal r m := by
    intro o ho
    obtain ⟨s, hs, rfl⟩ := mem_map.1 ho
    exact cB s (mem_filter.1 hs).1
  have hq : ∀ j < k, ((atleast2d states).2.getD j []).length = r := by
    intro j hj
    rw [getD_eq_getElem (atleast2d states).2 _ hj]
    exact hs _ (getElem_mem _)
  have hkindsM : ∀ s ∈ M'.slots, ∃ o ∈ N.ops, o.kind = s.op.kind := by
    intro s hs
    have : M'.slots.map (fun s => s.op.kind) = N.ops.map Op.kind := by
      rw [← hBops]
      clear * - hstep hMB
      generalize M'.slots = l' at hstep
      generalize M.slots = l at hstep hMB
      induction hstep generalizing B with
      | nil => cases hMB; rfl
      | cons hab _ ih =>
        cases hMB with
        | cons hab' h' =>
          rw [map_cons, map_cons, map_cons, ih _ h', hab.2.1, hab'.2.1]
    have hm : s.op.kind ∈ N.ops.map Op.kind := by rw [← this]; exact mem_map_of_mem (f := fun s : Slot K => s.op.kind) hs
    obtain ⟨o, ho, e⟩ := mem_map.1 hm
    exact ⟨o, ho, e⟩
  have iA : ∀ o ∈ M'.ops, ∀ j < k, InputOK o.kind m (inputAt inputs j) := by
    intro o ho j hj
    obtain ⟨s, hs, rfl⟩ := mem_map.1 ho
    obtain ⟨o', ho', e⟩ := hkindsM s hs
    rw [← e]
    exact hin o' ho' j hj
  have iA1 : ∀ o ∈ (M'.slots.filter Slot.infer).map Slot.op, ∀ j < k, InputOK o.kind m (inputAt inputs j) := by
    intro o ho
    obtain ⟨s, hs, rfl⟩ := mem_map.1 ho
    exact iA s.op (mem_map_of_mem (mem_filter.1 hs).1)
  have iB1 : ∀ o ∈ (B.filter Slot.infer).map Slot.op, ∀ j < k, InputOK o.kind m (inputAt inputs j) := by
    intro o ho
    obtain ⟨s, hs, rfl⟩ := mem_map.1 ho
    exact hin s.op (by rw [← hBops]; exact mem_map_of_mem (mem_filter.1 hs).1)
  have iB0 : ∀ o ∈ (B.filter fun s => !s.infer).map Slot.op, ∀ j < k, InputOK o.kind m (inputAt inputs j) := by
    intro o ho
    obtain ⟨s, hs, rfl⟩ := mem_map.1 ho
    exact hin s.op (by rw [← hBops]; exact mem_map_of_mem (mem_filter.1 hs).1)
  -- outputs of `N`
  have hrhsN : ∀ j < k, rhsVal (B.map Slot.op) r ((atleast2d states).2.getD j []) (inputAt inputs j) =
      (atleast2d lhs).2.getD j [] := by
    intro j hj
    have h1 := hdata j hj
    rw [rhs_eq N r m hcal _ _ (hq j hj) fun o ho => hin o ho j hj] at h1
    rw [hBops]
    exact Except.ok.inj h1
  have hw : ∀ j < k, w j = rhsVal ((B.filter fun s => !s.infer).map Slot.op) r ((atleast2d states).2.getD j [])
      (inputAt inputs j) := by
    intro j hj
    have h1 := (hopt.output j hj).2
    have hko : M.knownPart.ops = (B.filter fun s => !s.infer).map Slot.op := by
      rw [nB]; rfl
    rw [rhs_eq M.knownPart r m (by rw [hko]; exact cB0) _ _ (hq j hj) (by
      rw [hko]
      exact fun o ho => iB0 o ho j hj), hko] at h1
    exact (Except.ok.inj h1).symm
  have hto : M.toInfer = ((B.filter Slot.infer).map Slot.op).map Op.kind := by rw [kB]; rfl
  have htoA : M.toInfer = ((M'.slots.filter Slot.infer).map Slot.op).map Op.kind := by rw [kA]; rfl
  have hncols : O.ncols = (((B.filter Slot.infer).map Slot.op).map fun o => o.kind.dim r m).sum := by
    rw [← hopt.ncols 0 hpos]
    have h1 := dataVector_length (r := r) (m := m) (u := inputAt inputs 0) (((B.filter Slot.infer).map Slot.op).map Op.kind)
      (hq 0 hpos) (by
        intro o ho
        obtain ⟨o', ho', rfl⟩ := mem_map.1 ho
        exact iB1 o' ho' 0 hpos)
    rw [← hto] at h1
    rw [dataVector] at h1
    rw [h1, hto, map_map]
    rfl
  have hle := hopt.optimal ⟨r, (((B.filter Slot.infer).map Slot.op).map fun o => o.kind.dim r m).sum,
    stackRows ((B.filter Slot.infer).map Slot.op) r⟩ (stackRows_wf cB1) hopt.nrows.symm hncols.symm
  have hllen : ∀ j < k, ((atleast2d lhs).2.getD j []).length = r := by
    intro j hj
    rw [← hrhsN j hj]
    exact length_rhsVal _ r m (by rw [hBops]; exact hcal) _ _
  rw [add_zero, add_zero, ← hkdef, snapshotLoss_exact k _ (outputWith M _ _ _ w)] at hle
  · have hy := snapshotLoss_zero k _ y (by
      intro j hj
      rw [hllen j hj, rhs_length M' (hopt.output j hj).1]
      exact hq j hj) hle
    -- the learned parts give the same values
    have hval : ∀ j < k, rhsVal ((M'.slots.filter Slot.infer).map Slot.op) r ((atleast2d states).2.getD j [])
        (inputAt inputs j) = rhsVal ((B.filter Slot.infer).map Slot.op) r ((atleast2d states).2.getD j [])
        (inputAt inputs j) := by
      intro j hj
      have h1 := (hopt.output j hj).1
      rw [rhs_eq M' r m hcal' _ _ (hq j hj) fun o ho => iA o ho j hj, hy j hj, ← hrhsN j hj] at h1
      have h2 := Except.ok.inj h1
      rw [rhsVal_split B cB, Model.ops, rhsVal_split M'.slots cA, nA, nB] at h2
      have c0 : ∀ o ∈ (M.slots.filter fun s => !s.infer).map Slot.op, o.Cal r m := by rw [← nB]; exact cB0
      exact vadd_right_cancel' (by rw [length_rhsVal _ r m cA1, length_rhsVal _ r m c0])
        (by rw [length_rhsVal _ r m cB1, length_rhsVal _ r m c0]) h2
    have hops : (M'.slots.filter Slot.infer).map Slot.op = (B.filter Slot.infer).map Slot.op := by
      refine stackRows_inj cA1 cB1 (kA.trans kB.symm) fun i hi => ?_
      have e1 := stackRow_length _ cA1 hi
      have e2 := stackRow_length _ cB1 hi
      have e3 : (((M'.slots.filter Slot.infer).map Slot.op).map fun o => o.kind.dim r m).sum =
          (M.toInfer.map fun o => o.dim r m).sum := by rw [htoA, map_map (g := fun o : OpKind => o.dim r m)]; rfl
      have e4 : (((B.filter Slot.infer).map Slot.op).map fun o => o.kind.dim r m).sum =
          (M.toInfer.map fun o => o.dim r m).sum := by rw [hto, map_map (g := fun o : OpKind => o.dim r m)]; rfl
      refine vsub_zero_mem (by rw [e1, e2, e3, e4]) (hinf _ (by rw [length_vsub, e1, e2, e3, e4, min_self]) ?_)
      intro j hj
      rw [dot_vsub_left _ _ _ (by rw [e1, e2, e3, e4]), sub_eq_zero]
      have h1 := hval j hj
      rw [rhsVal_stack cA1 _ _ (hq j hj) fun o ho => iA1 o ho j hj,
        rhsVal_stack cB1 _ _ (hq j hj) fun o ho => iB1 o ho j hj, ← htoA, ← hto] at h1
      have h2 := congrArg (fun l : List K => l.getD i 0) h1
      simp only [matVec, stackRows] at h2
      rw [getD_eq_getElem (map _ _) _ (by simpa using hi), getD_eq_getElem (map _ _) _ (by simpa using hi)] at h2
      simpa using h2
    -- put the parts together again
    have hall : M'.slots = B := by
      have hAB : Forall₂ (fun a b : Slot K => a.infer = b.infer ∧ (a.infer = false → a = b)) M'.slots B := by
        clear * - hstep hMB
        generalize M'.slots = l' at hstep
        generalize M.slots = l at hstep hMB
        induction hstep generalizing B with
        | nil => cases hMB; exact .nil
        | cons hab _ ih =>
          cases hMB with
          | cons hab' h' =>
            refine .cons ⟨hab.1.trans hab'.1.symm, fun h => ?_⟩ (ih _ h')
            rw [hab.2.2 (hab.1 ▸ h), hab'.2.2 (hab.1 ▸ h)]
      clear * - hAB hops
      generalize M'.slots = A at hAB hops
      induction hAB with
      | nil => rfl
      | @cons a b A B hab _ ih =>
        cases hi : a.infer
        · have hb : b.infer = false := hab.1 ▸ hi
          rw [filter_cons_of_neg (by simp [hi]), filter_cons_of_neg (by simp [hb])] at hops
          rw [hab.2 hi, ih hops]
        · have hb : b.infer = true := hab.1 ▸ hi
          rw [filter_cons_of_pos hi, filter_cons_of_pos hb, map_cons, map_cons, cons.injEq] at hops
          rw [ih hops.2]
          cases a; cases b
          simp only at hops hi hb
          rw [hops.1, hi, hb]
    rw [Model.ops, hall, hBops]
  · intro j hj
    rw [← hrhsN j hj, outputWith, rhsVal_split B cB, hw j hj,
      rhsVal_stack cB1 _ _ (hq j hj) fun o ho => iB1 o ho j hj, hto]
    rfl

/-- The shape of a fitted model compared with the model before. -/
theorem fit_slots {S : Type} (I : SolverI K S) (M : Model K S) (hM : M.Inv) (hint : M.intrusive = false)
    (states lhs : Arg K) (inputs : Option (Arg K)) (hs : states.WF) (hl : lhs.WF) (hin : ∀ a ∈ inputs, a.WF)
    (hr : 0 < (atleast2d states).1) (hI : I.Shaped (atleast2d states).1) (M' : Model K S)
    (hfit : M.fit I states lhs inputs = (M', .ok ())) :
    Forall₂ (fun s s' : Slot K => s'.infer = s.infer ∧ s'.op.kind = s.op.kind ∧ (s.infer = false → s' = s))
      M.slots M'.slots := by
  obtain ⟨s, M1, Z, D, O, m, f1, f2, f3, f4, f5, f6, f7, f8, f9, f10, f11, f12, f13, f14, f15, f16,
    f17, f18, f19, f20, f21⟩ := fit_master I M hM hint states lhs inputs hs hl hin hI M' hfit
  obtain ⟨-, hst, -⟩ := extractLoop_spec (atleast2d states).1 m hr O f11 f12 M1.slots 0
    (by rw [f13, f14]; simp)
  have hsl : M'.slots = (extractLoop (atleast2d states).1 m O 0 M1.slots).1 := by rw [f20]
  rw [← hsl, f2, clearSlots, forall₂_map_left_iff] at hst
  refine hst.imp fun a b h => ?_
  obtain ⟨h1, h2, h3, -⟩ := h
  cases hi : a.infer
  · rw [hi] at h1 h2 h3
    simp only [Bool.false_eq_true, if_false] at h1 h2 h3
    exact ⟨h1.trans hi, h2, fun _ => h3 hi⟩
  · rw [hi] at h1 h2
    simp only [if_true] at h1 h2
    exact ⟨h1, h2, fun h => absurd h (by simp)⟩

/-- A fit that minimises the residual without penalty recovers the model that generated the data. -/
theorem recover_of_optimal {S S' : Type} (I : SolverI K S) (M : Model K S) (hM : M.Inv) (hint : M.intrusive = false)
    (states lhs : Arg K) (inputs : Option (Arg K)) (hs : states.WF) (hl : lhs.WF) (hin : ∀ a ∈ inputs, a.WF)
    (hr : 0 < (atleast2d states).1) (hI : I.Shaped (atleast2d states).1) (hempty : ∀ s D, (I.fit s D []).2 ≠ .ok ())
    (M' : Model K S) (hfit : M.fit I states lhs inputs = (M', .ok ())) (N : Model K S') (m : Nat)
    (hcal : ∀ o ∈ N.ops, o.Cal (atleast2d states).1 m) (hm : ∀ a ∈ inputs, (atleast2d a).1 = m) (hN : Completes M N)
    (hdata : ∀ j < (atleast2d states).2.length,
      N.rhs ((atleast2d states).2.getD j []) (inputAt inputs j) = .ok ((atleast2d lhs).2.getD j []))
    (hinf : Informative M.toInfer (M.toInfer.map fun o => o.dim (atleast2d states).1 m).sum
      (atleast2d states).2.length (fun j => (atleast2d states).2.getD j []) (inputAt inputs))
    (O : Mat K) (y w : Nat → List K) (hopt : FitOptimal M M' states lhs inputs (fun _ => 0) O y w) : M'.ops = N.ops := by
  have hstep := fit_slots I M hM hint states lhs inputs hs hl hin hr hI M' hfit
  obtain ⟨m', htr, hm'⟩ := C20_fit_trains I M hM hint states lhs inputs hs hl hin hr hI M' hfit
  obtain ⟨s, M1, Z, D, P, m2, f1, f2, f3, f4, f5, f6, f7, f8, f9, f10, f11, f12, f13, f14, f15, f16,
    f17, f18, f19, f20, f21⟩ := fit_master I M hM hint states lhs inputs hs hl hin hI M' hfit
  have hpos : 0 < (atleast2d states).2.length := by
    by_contra hc
    have : Z = [] := by rw [← length_eq_zero_iff, f17]; omega
    rw [this] at f9
    exact hempty _ _ f9
  -- operators with inputs see inputs of dimension `m`
  have hkind : ∀ o : OpKind, o ∈ M.ops.map Op.kind → o.hasInputs = true → M.hasInputs = true := by
    intro o ho hoi
    obtain ⟨o', ho', rfl⟩ := mem_map.1 ho
    rw [hM.inputs, any_eq_true]
    exact ⟨o', ho', hoi⟩
  have hNk : N.ops.map Op.kind = M.ops.map Op.kind := by
    have h := hN
    rw [Completes] at h
    rw [show M.ops = M.slots.map Slot.op from rfl]
    generalize M.slots = l at h
    generalize N.ops = l' at h
    clear * - h
    induction h with
    | nil => rfl
    | cons hab _ ih => rw [map_cons, map_cons, map_cons, ih, hab.1]
  have hM'k : M'.ops.map Op.kind = M.ops.map Op.kind := by
    rw [Model.ops, Model.ops]
    generalize M.slots = l at hstep
    generalize M'.slots = l' at hstep
    clear * - hstep
    induction hstep with
    | nil => rfl
    | cons hab _ ih => rw [map_cons, map_cons, map_cons, map_cons, ih, hab.2.1]
  have hM1k : M1.ops.map Op.kind = M.ops.map Op.kind := by
    rw [Model.ops, f2]
    exact clearSlots_kinds _
  have heq : M.hasInputs = true → m' = m := by
    intro h
    obtain ⟨a, ha, e⟩ := hm' h
    rw [← e]
    exact hm a (by rw [ha]; rfl)
  have heq2 : M.hasInputs = true → m2 = m := by
    intro h
    obtain ⟨a, ha, e⟩ := f7 h
    rw [← e]
    exact hm a (by rw [ha]; rfl)
  refine recover_core M M' N m states lhs inputs hs O y w hopt hpos hstep ?_ hcal hN ?_ hdata hinf
  · intro o ho
    have h1 := htr.cal o ho
    cases hi : o.kind.hasInputs
    · exact h1.of_no_input hi
    · rw [← heq (hkind _ (by rw [← hM'k]; exact mem_map_of_mem ho) hi)]
      exact h1
  · intro o ho j hj hoi
    have h1 : o.kind ∈ M1.ops.map Op.kind := by rw [hM1k, ← hNk]; exact mem_map_of_mem ho
    obtain ⟨o', ho', e⟩ := mem_map.1 h1
    have h2 := (f19 j hj).2.1 o' ho'
    rw [e] at h2
    have h3 := h2 hoi
    rwa [heq2 (hkind _ (by rw [← hNk]; exact mem_map_of_mem ho) hoi)] at h3

/-! ### Property theorems -/

/-- **C76.** If the left-hand side data are the outputs of a model `N` with the same operators (known operators
included), and the data vectors at the snapshots determine the operators to learn, then training with the plain solver
recovers `N`: the operators after training are exactly the operators of `N`. -/
theorem C76_fit_recovers {S' : Type} (lstsq : Mat K → Mat K → Except Err (Mat K))
    (hls : ∀ A B X, lstsq A B = .ok X → IsLstsq A B X) (M : Model K (Plain K)) (hM : M.Inv) (hint : M.intrusive = false)
    (states lhs : Arg K) (inputs : Option (Arg K)) (hs : states.WF) (hl : lhs.WF) (hin : ∀ a ∈ inputs, a.WF)
    (hr : 0 < (atleast2d states).1) (M' : Model K (Plain K))
    (hfit : M.fit (plainSolver lstsq) states lhs inputs = (M', .ok ())) (N : Model K S') (m : Nat)
    (hcal : ∀ o ∈ N.ops, o.Cal (atleast2d states).1 m) (hm : ∀ a ∈ inputs, (atleast2d a).1 = m) (hN : Completes M N)
    (hdata : ∀ j < (atleast2d states).2.length,
      N.rhs ((atleast2d states).2.getD j []) (inputAt inputs j) = .ok ((atleast2d lhs).2.getD j []))
    (hinf : Informative M.toInfer (M.toInfer.map fun o => o.dim (atleast2d states).1 m).sum
      (atleast2d states).2.length (fun j => (atleast2d states).2.getD j []) (inputAt inputs)) : M'.ops = N.ops := by
  obtain ⟨O, y, w, hopt⟩ := C62_plain_fit_is_optimal lstsq hls M hM hint states lhs inputs hs hl hin hr M' hfit
  exact recover_of_optimal _ M hM hint states lhs inputs hs hl hin hr
    (plainSolver_shaped lstsq (fun A B X h => ⟨(hls A B X h).wf, (hls A B X h).rows, (hls A B X h).cols⟩) _)
    (fun s D => by simp [plainSolver]) M' hfit N m hcal hm hN hdata hinf O y w hopt

/-- **C76** (`L2Solver` with regularizer zero). -/
theorem C76_fit_recovers_l2 {S' : Type} (svd : Mat K → Except Err (Svd K)) (hsvd : ∀ D u, svd D = .ok u → IsSVD D u)
    (M : Model K (L2 K K)) (hM : M.Inv) (hint : M.intrusive = false) (hreg : ∀ s ∈ M.solver, s.reg = some 0)
    (states lhs : Arg K) (inputs : Option (Arg K)) (hs : states.WF) (hl : lhs.WF) (hin : ∀ a ∈ inputs, a.WF)
    (hr : 0 < (atleast2d states).1) (M' : Model K (L2 K K))
    (hfit : M.fit (l2Solver svd) states lhs inputs = (M', .ok ())) (N : Model K S') (m : Nat)
    (hcal : ∀ o ∈ N.ops, o.Cal (atleast2d states).1 m) (hm : ∀ a ∈ inputs, (atleast2d a).1 = m) (hN : Completes M N)
    (hdata : ∀ j < (atleast2d states).2.length,
      N.rhs ((atleast2d states).2.getD j []) (inputAt inputs j) = .ok ((atleast2d lhs).2.getD j []))
    (hinf : Informative M.toInfer (M.toInfer.map fun o => o.dim (atleast2d states).1 m).sum
      (atleast2d states).2.length (fun j => (atleast2d states).2.getD j []) (inputAt inputs)) : M'.ops = N.ops := by
  obtain ⟨s, lam, O, y, w, h1, h2, hopt⟩ :=
    C62_l2_fit_is_optimal svd hsvd M hM hint states lhs inputs hs hl hin hr M' hfit
  have h0 := hreg s (by rw [h1]; rfl)
  rw [h2, Option.some.injEq] at h0
  have hopt' : FitOptimal M M' states lhs inputs (fun _ => 0) O y w := by
    refine ⟨hopt.opMatrix, hopt.wf, hopt.nrows, hopt.ncols, hopt.output, fun O' a b c => ?_⟩
    have := hopt.optimal O' a b c
    simpa [h0] using this
  exact recover_of_optimal _ M hM hint states lhs inputs hs hl hin hr
    (l2Solver_shaped svd (fun D u h => ⟨(hsvd D u h).psiWF, (hsvd D u h).psiCols⟩) _)
    (fun s D => by simp [l2Solver]) M' hfit N m hcal hm hN hdata hinf O y w hopt'

/-- **C76** (the condition is needed): if the data vectors are not informative, then every operator matrix has a
different one with the same outputs at all snapshots, so that the data cannot determine the operators. -/
theorem C76_not_determined (kinds : List OpKind) (d k : Nat) (q : Nat → List K) (u : Nat → Option (List K))
    (hninf : ¬ Informative kinds d k q u) (O : Mat K) (hO : O.WF) (hr : 0 < O.nrows) (hd : O.ncols = d) :
    ∃ P : Mat K, P.WF ∧ P.nrows = O.nrows ∧ P.ncols = O.ncols ∧ P ≠ O ∧
      ∀ j < k, matVec P.rows (dataVector kinds (q j) ((u j).getD [])) =
        matVec O.rows (dataVector kinds (q j) ((u j).getD [])) := by
  simp only [Informative, not_forall] at hninf
  obtain ⟨x, hx, hz, y, hy, hne⟩ := hninf
  obtain ⟨n', c, rows⟩ := O
  simp only at hd hr
  subst hd
  cases rows with
  | nil => exact absurd hO.1 (by simp; omega)
  | cons a rows =>
    have ha : a.length = c := hO.2 a mem_cons_self
    have hl : (vadd a x).length = c := by rw [vadd, length_zipWith, ha, hx, min_self]
    refine ⟨⟨n', c, vadd a x :: rows⟩, ⟨by simpa using hO.1, ?_⟩, rfl, rfl, ?_, fun j hj => ?_⟩
    · intro row hrow
      rcases mem_cons.1 hrow with rfl | h
      · exact hl
      · exact hO.2 row (mem_cons_of_mem _ h)
    · intro h
      simp only [Mat.mk.injEq, cons.injEq, true_and, and_true] at h
      obtain ⟨i, hi, rfl⟩ := mem_iff_getElem.1 hy
      have h1 : (vadd a x).getD i 0 = a.getD i 0 := by rw [h]
      rw [getD_eq_getElem (vadd a x) _ (by omega), getD_eq_getElem a _ (by omega)] at h1
      simp only [vadd, getElem_zipWith] at h1
      exact hne (by simpa using h1)
    · simp only [matVec, map_cons]
      rw [dot_vadd_left _ _ _ (by rw [ha, hx]), hz j hj, add_zero]

/-- **C76** (discrete models): training on a trajectory computed by a trained model `N` with the same operators recovers
`N`, provided the trajectory is informative. -/
theorem C76_discrete_recovers {S' : Type} (lstsq : Mat K → Mat K → Except Err (Mat K))
    (hls : ∀ A B X, lstsq A B = .ok X → IsLstsq A B X) (M : Model K (Plain K)) (hM : M.Inv) (hint : M.intrusive = false)
    (n m : Nat) (N : Model K S') (hNt : N.Trained n m) (hN : Completes M N)
    (q0 : List K) (X : List (List K)) (inputs : Option (Arg K)) (hin : ∀ a ∈ inputs, a.WF)
    (hm : ∀ a ∈ inputs, (atleast2d a).1 = m) (M' : Model K (Plain K))
    (hX : N.predict q0 X.length (inputs.elim .none .arr) = .ok X)
    (hfit : M.fitDiscrete (plainSolver lstsq) n X none inputs = (M', .ok ()))
    (hinf : Informative M.toInfer (M.toInfer.map fun o => o.dim n m).sum (X.length - 1) (fun j => X.getD j [])
      (inputAt inputs)) : M'.ops = N.ops := by
  obtain ⟨-, p2, p3, p4, p5, p6, p7⟩ := (C15_predict_iff N q0 X.length _ X).1 hX
  rw [Int.toNat_natCast] at p7
  have hns : ∀ x, inputs ≠ some (.scalar x) := by
    rintro x rfl
    simp [Model.fitDiscrete] at hfit
  rw [fitDiscrete_eq _ M n X inputs hns] at hfit
  have hlen : (X.take (X.length - 1)).length = X.length - 1 := by simp
  have hXlen : ∀ x ∈ X, x.length = n := by
    have : ∀ j, j < X.length → (X.getD j []).length = n := by
      intro j
      induction j with
      | zero =>
        intro _
        rw [p6]
        rw [hNt.dim] at p2
        exact Option.some.inj p2
      | succ j ih =>
        intro hj
        rw [rhs_length N (p7 j hj)]
        exact ih (by omega)
    intro x hx
    obtain ⟨j, hj, rfl⟩ := mem_iff_getElem.1 hx
    rw [← getD_eq_getElem X [] hj]
    exact this j hj
  have hs : (Arg.mat n (X.take (X.length - 1))).WF := fun c hc => hXlen c (mem_of_mem_take hc)
  have hl : (Arg.mat n (X.drop 1)).WF := fun c hc => hXlen c (mem_of_mem_drop hc)
  have htake : ∀ a ∈ inputs.map (Arg.takeCols (X.take (X.length - 1)).length), ∃ b ∈ inputs,
      (atleast2d a) = ((atleast2d b).1, (atleast2d b).2.take (X.take (X.length - 1)).length) := by
    intro a ha
    cases inputs with
    | none => cases ha
    | some b =>
      rw [Option.map_some, Option.mem_some_iff] at ha
      subst ha
      have hb : ∀ x, b ≠ .scalar x := fun x hx => hns x (by rw [hx])
      exact ⟨b, rfl, atleast2d_takeCols _ b hb⟩
  have hin' : ∀ a ∈ inputs.map (Arg.takeCols (X.take (X.length - 1)).length), a.WF := by
    intro a ha
    obtain ⟨b, hb, e⟩ := htake a ha
    intro c hc
    rw [e] at hc ⊢
    exact hin b hb c (mem_of_mem_take hc)
  have hst : ∀ j, j < X.length - 1 → (X.take (X.length - 1)).getD j [] = X.getD j [] :=
    fun j hj => getD_take_lt _ _ _ _ hj
  have hlh : ∀ j, (X.drop 1).getD j [] = X.getD (j + 1) [] := fun j => by
    rw [getD_drop', Nat.add_comm 1 j]
  have hia : ∀ j, j < X.length - 1 →
      inputAt (inputs.map (Arg.takeCols (X.take (X.length - 1)).length)) j = inputAt inputs j :=
    fun j hj => inputAt_takeCols _ inputs hns j (by rw [hlen]; exact hj)
  refine C76_fit_recovers lstsq hls M hM hint (.mat n (X.take (X.length - 1))) (.mat n (X.drop 1))
    (inputs.map (Arg.takeCols (X.take (X.length - 1)).length)) hs hl hin' hNt.pos M' hfit N m hNt.cal ?_ hN ?_ ?_
  · intro a ha
    obtain ⟨b, hb, e⟩ := htake a ha
    rw [e]
    exact hm b hb
  · intro j hj
    simp only [atleast2d] at hj ⊢
    rw [hlen] at hj
    rw [hst j hj, hlh, hia j hj]
    have h1 := p7 j (by omega)
    by_cases hi : N.hasInputs = true
    · cases inputs with
      | none => rw [hi] at h1; exact h1
      | some b => rw [hi] at h1; exact h1
    · rw [← h1]
      apply C21_rhs_ignores_inputs
      intro o ho
      have := hNt.inv.inputs
      rw [Bool.not_eq_true] at hi
      rw [hi] at this
      simpa using (any_eq_false.mp this.symm) o ho
  · intro x hx h0
    simp only [atleast2d] at hx h0
    refine hinf x hx fun j hj => ?_
    have := h0 j (by rw [hlen]; exact hj)
    rwa [hst j hj, hia j hj] at this

/-! ### Examples -/

/-- The model that generates the data of the examples. -/
def exDouble : Model ℚ (Plain ℚ) := ⟨[⟨⟨.lin, some ⟨1, 1, [[2]]⟩⟩, false⟩], false, some 1, some 0, true, none⟩

theorem exDouble_trained : exDouble.Trained 1 0 := by
  have hc : ∀ o ∈ exDouble.ops, o.Cal 1 0 := by
    intro o ho
    simp only [exDouble, Model.ops, map_cons, map_nil, mem_singleton] at ho
    subst ho
    exact ⟨_, rfl, ⟨rfl, by decide⟩, rfl, rfl⟩
  refine ⟨⟨?_, rfl, ?_, fun h => absurd h (by simp [exDouble]), fun h => absurd h (by simp [exDouble])⟩, by decide,
    by decide, rfl, rfl, hc⟩
  · intro s hs
    simp only [exDouble, mem_singleton] at hs
    subst hs
    intro E hE
    cases hE
    exact ⟨by decide, 0, ⟨rfl, by decide⟩, rfl, rfl⟩
  · intro s hs _
    simp only [exDouble, mem_singleton] at hs
    subst hs
    rfl

theorem exDouble_informative : Informative (K := ℚ) [.lin] 1 2 (fun j => [[1], [2], [4]].getD j []) (inputAt none) := by
  intro x hx h
  obtain ⟨a, rfl⟩ := length_eq_one_iff.1 hx
  have := h 0 (by omega)
  simp [dataVector, OpKind.dataCol, dot] at this
  simpa using this

-- all hypotheses of `C76_discrete_recovers` hold for a trajectory of `exDouble`
example : (exScalar.fitDiscrete (plainSolver exLs) 1 [[1], [2], [4]] none none).1.ops = exDouble.ops := by
  have h1 : (exScalar.fitDiscrete (plainSolver exLs) 1 [[1], [2], [4]] none none).2 = .ok () := by decide +kernel
  refine C76_discrete_recovers exLs exLs_spec exScalar exScalar_inv rfl 1 0 exDouble exDouble_trained ?_ [1]
    [[1], [2], [4]] none (fun a h => by cases h) (fun a h => by cases h) _ (by decide +kernel) (Prod.ext rfl h1)
    exDouble_informative
  exact .cons ⟨rfl, fun h => absurd h (by simp)⟩ .nil

-- a zero trajectory is not informative
example : ¬ Informative (K := ℚ) [.lin] 1 2 (fun _ => [0]) (fun _ => none) := by
  intro h
  exact absurd (h [1] rfl (fun j _ => by simp [dataVector, OpKind.dataCol, dot]) 1 (by simp)) (by norm_num)

end Opinf
