import Verif.Lemmas.ParamFit

/-!
# Parametric models: from the arguments of `fit` to the regression
-/

namespace Opinf

open List

variable {K S : Type}

/-- The operators of a parametric model that are not learned. -/
def PModel.known (M : PModel K S) : List (POp K) := (M.slots.filter fun s => !s.infer).map PSlot.op

/-- Arguments of `fit` for states of dimension `r` and inputs of dimension `m` (zero without inputs), and a
model whose flag for inputs is right and whose known operators are defined at the training parameters. -/
structure PFitArgs [Semiring K] (lib : ItpLib K) (M : PModel K S) (ps : List (Par K))
    (states lhs : List (Arg K)) (inputs : Option (List (Arg K))) (r m : Nat) : Prop where
  ps_ne : ps ≠ []
  slots_ne : M.slots ≠ []
  states_wf : ∀ a ∈ states, a.WF
  lhs_wf : ∀ a ∈ lhs, a.WF
  inputs_wf : ∀ us ∈ inputs, ∀ a ∈ us, a.WF
  r_pos : 0 < r
  height : ∀ a ∈ states, (atleast2d a).1 = r
  input_height : M.hasInputs = true → ∀ us ∈ inputs, ∀ a ∈ us, (atleast2d a).1 = m
  no_inputs : M.hasInputs = false → m = 0
  flag : ∀ o ∈ M.ops, o.kind.hasInputs = true → M.hasInputs = true
  known : ∀ s ∈ M.slots, s.infer = false → ∀ mu ∈ ps, ∃ op, s.op.EvalsTo lib mu r m op

theorem sum_filter_split {α : Type} [AddCommMonoid K] (l : List α) (p : α → Bool) (f : α → K) :
    (l.map f).sum = ((l.filter p).map f).sum + ((l.filter fun a => !p a).map f).sum := by
  induction l with
  | nil => simp
  | cons a l ih =>
    cases h : p a with
    | true =>
      rw [filter_cons_of_pos h, filter_cons_of_neg (by simp [h]), map_cons, sum_cons, ih, map_cons, sum_cons,
        add_assoc]
    | false =>
      rw [filter_cons_of_neg (by simp [h]), filter_cons_of_pos (by simp [h]), map_cons, sum_cons, ih, map_cons,
        sum_cons, add_left_comm]

theorem forall₂_of_mem_zip {α β : Type} {R : α → β → Prop} (l : List α) (l' : List β)
    (hl : l.length = l'.length) (h : ∀ x ∈ zip l l', R x.1 x.2) : Forall₂ R l l' := by
  rw [forall₂_iff_zip]
  exact ⟨hl, fun {a b} hab => h (a, b) hab⟩

theorem makeSets_mem {ps : List (Par K)} {st : List (Nat × List (List K))}
    {U : List (Option (Nat × List (List K)))} {x : PSet K} (h : x ∈ makeSets ps st U) :
    ((x.n, x.states), x.inputs) ∈ zip st U := by
  unfold makeSets at h
  rw [← map_uncurry_zip_eq_zipWith] at h
  obtain ⟨⟨mu, y⟩, hy, rfl⟩ := mem_map.mp h
  exact (of_mem_zip hy).2

theorem makeSets_states (ps : List (Par K)) (st : List (Nat × List (List K)))
    (U : List (Option (Nat × List (List K)))) (h1 : st.length = ps.length) (h2 : U.length = ps.length) :
    (makeSets ps st U).map PSet.states = st.map Prod.snd := by
  unfold makeSets
  induction ps generalizing st U with
  | nil => simp [length_eq_zero_iff.mp h1]
  | cons mu ps ih =>
    cases st with
    | nil => simp at h1
    | cons a st =>
      cases U with
      | nil => simp at h2
      | cons u U =>
        simp only [zip_cons_cons, zipWith_cons_cons, map_cons]
        rw [ih st U (by simpa using h1) (by simpa using h2)]

theorem process_samples [CommRing K] (lib : ItpLib K) (M M1 : PModel K S) (ps : List (Par K))
    (states lhs : List (Arg K)) (inputs : Option (List (Arg K))) (r m : Nat)
    (hA : PFitArgs lib M ps states lhs inputs r m) (data : List (PSet K)) (Z : List (List (List K)))
    (h : M.processFitArgs lib ps states lhs inputs = (M1, .ok (data, Z))) :
    ∃ d, paramsDim ps = .ok d ∧ M1.slots = M.slots.map (prepSlot d) ∧ M1.r = some r ∧ M1.m = some m ∧
      M1.hasInputs = M.hasInputs ∧ M1.intrusive = M.intrusive ∧ M1.solver = M.solver ∧
      (∀ x ∈ data, x.OK r m M.hasInputs) ∧ data.map PSet.mu = ps ∧ data.length = ps.length ∧
      data.map PSet.triple = trainData M.hasInputs ps states inputs ∧
      data.map PSet.states = states.map (fun a => (atleast2d a).2) ∧
      Forall₂ (fun (x : PSet K) L => L.length = x.states.length) data Z ∧
      (∀ z ∈ Z.flatten, z.length = r) ∧
      Forall₂ (fun (x : PSet K) L => L.length = x.states.length) data (lhs.map fun L => (atleast2d L).2) ∧
      ∀ (j : Nat) y, (trainSamples M.hasInputs ps states inputs)[j]? = some y →
        ∃ l z w, (lhs.flatMap fun L => (atleast2d L).2)[j]? = some l ∧ Z.flatten[j]? = some z ∧
          l.length = r ∧ w.length = r ∧ SumAt lib M.known y.1 y.2.1 y.2.2 r w ∧ z = vsub l w ∧
          w = (M.known.map fun o => o.val lib y.1 y.2.1 y.2.2).foldl vadd (replicate r 0) := by
  obtain ⟨d, U, f1, f2, f3, f4, f5, f6, f7, f8, f9, f10, f11, f12, f13, rfl, f15⟩ :=
    process_inv lib M M1 ps states lhs inputs data Z h
  have hpos : 0 < ps.length := length_pos_iff.mpr hA.ps_ne
  have hr : M1.r = some r := by
    cases hst : states with
    | nil => rw [hst] at f7; simp at f7; omega
    | cons a st =>
      rw [← f8 a (by rw [hst]; exact mem_cons_self), hA.height a (by rw [hst]; exact mem_cons_self)]
  have hno : M.hasInputs = false → M.ops.any (fun o => o.kind.hasInputs) = false := by
    intro hi
    rw [any_eq_false]
    intro o ho hoi
    rw [hA.flag o ho hoi] at hi
    cases hi
  have hm : M1.m = some m := by
    cases hi : M.hasInputs with
    | true =>
      obtain ⟨us, u1, -, u3, u4, -⟩ := f12 hi
      cases hus : us with
      | nil => rw [hus] at u3; simp at u3; omega
      | cons a us' =>
        rw [← u4 a (by rw [hus]; exact mem_cons_self),
          hA.input_height hi us u1 a (by rw [hus]; exact mem_cons_self)]
    | false => rw [(f13 hi).2 (hno hi), hA.no_inputs hi]
  have hUlen : U.length = ps.length := by
    cases hi : M.hasInputs with
    | true => obtain ⟨us, -, rfl, u3, -⟩ := f12 hi; simpa using u3
    | false => rw [(f13 hi).1]; simp
  have hslen : (states.map atleast2d).length = ps.length := by simpa using f7
  obtain ⟨g1, g2⟩ := makeSets_mu ps (states.map atleast2d) U hslen hUlen
  have g3 := makeSets_states ps (states.map atleast2d) U hslen hUlen
  have hdata : ∀ x ∈ makeSets ps (states.map atleast2d) U, x.OK r m M.hasInputs := by
    intro x hx
    have hz := makeSets_mem hx
    obtain ⟨a, ha, hax⟩ := mem_map.mp (of_mem_zip hz).1
    refine ⟨?_, ?_, ?_, ?_⟩
    · rw [← hA.height a ha, hax]
    · intro q hq
      have := hA.states_wf a ha
      rw [Arg.WF, hA.height a ha, hax] at this
      exact this q hq
    · intro V hV
      cases hi : M.hasInputs with
      | false =>
        rw [(f13 hi).1] at hz
        have := eq_of_mem_replicate (of_mem_zip hz).2
        rw [this] at hV; simp at hV
      | true =>
        obtain ⟨us, u1, rfl, -, u4, u5⟩ := f12 hi
        rw [zip_map_right] at hz
        obtain ⟨⟨st, b⟩, hb1, hb2⟩ := mem_map.mp hz
        simp only [Prod.map_apply, id_eq, Prod.mk.injEq] at hb2
        obtain ⟨rfl, hb2⟩ := hb2
        rw [← hb2] at hV
        cases Option.mem_some.mp hV
        obtain ⟨c, hc, rfl⟩ := mem_map.mp (of_mem_zip hb1).2
        have hcw := hA.inputs_wf us u1 c hc
        have hch := hA.input_height hi us u1 c hc
        rw [Arg.WF, hch] at hcw
        exact ⟨hch, u5 _ hb1, hcw⟩
    · intro hi
      obtain ⟨us, u1, rfl, -, u4, u5⟩ := f12 hi
      obtain ⟨b, -, hb⟩ := mem_map.mp (of_mem_zip hz).2
      rw [← hb]; rfl
  have htriple : (makeSets ps (states.map atleast2d) U).map PSet.triple
      = trainData M.hasInputs ps states inputs := by
    cases hi : M.hasInputs with
    | true =>
      obtain ⟨us, rfl, rfl, -⟩ := f12 hi
      exact makeSets_triple_some ps states us
    | false =>
      rw [(f13 hi).1]
      exact makeSets_triple_none ps states inputs f7
  have hLlen : Forall₂ (fun (x : PSet K) L => L.length = x.states.length)
      (makeSets ps (states.map atleast2d) U) (lhs.map fun L => (atleast2d L).2) := by
    have h1 : Forall₂ (fun (a b : Nat × List (List K)) => b.2.length = a.2.length) (states.map atleast2d)
        (lhs.map atleast2d) := forall₂_of_mem_zip _ _ (by rw [length_map, length_map, f7, f9]) f11
    have h2 : Forall₂ (fun (Q L : List (List K)) => L.length = Q.length)
        ((states.map atleast2d).map Prod.snd) ((lhs.map atleast2d).map Prod.snd) := by
      rw [forall₂_map_left_iff, forall₂_map_right_iff]; exact h1
    rw [← g3, forall₂_map_left_iff, map_map] at h2
    exact h2
  have hmudim := paramsDim_ok f1
  have hkn : ∀ s ∈ M1.slots, s.infer = false → ∀ x ∈ makeSets ps (states.map atleast2d) U,
      ∃ op, s.op.EvalsTo lib x.mu r m op := by
    intro s hs hsi x hx
    rw [f2] at hs
    obtain ⟨t, ht, rfl⟩ := mem_map.mp hs
    have hti : t.infer = false := hsi
    have hmu : x.mu ∈ ps := by rw [← g1]; exact mem_map.mpr ⟨x, hx, rfl⟩
    obtain ⟨op, hop⟩ := hA.known t ht hti x.mu hmu
    refine ⟨op, ?_⟩
    have := hop.fill
    rw [hmudim _ hmu] at this
    simpa [prepSlot, hti] using this
  have hflag1 : ∀ s ∈ M1.slots, s.op.kind.hasInputs = true → M.hasInputs = true := by
    intro s hs hsi
    rw [f2] at hs
    obtain ⟨t, ht, rfl⟩ := mem_map.mp hs
    rw [prepSlot_kind] at hsi
    exact hA.flag t.op (mem_map.mpr ⟨t, ht, rfl⟩) hsi
  have hLr : ∀ z ∈ (lhs.map fun L => (atleast2d L).2).flatten, z.length = r := by
    intro z hz
    obtain ⟨l, hl, hzl⟩ := mem_flatten.mp hz
    obtain ⟨a, ha, rfl⟩ := mem_map.mp hl
    have := hA.lhs_wf a ha z hzl
    rw [this]
    have h2 := f10 a ha
    rw [hr] at h2
    exact Option.some.inj h2
  obtain ⟨Z', k1, k2, k3, k4⟩ := pSubKnown_spec lib r m M.hasInputs _ hdata M1.slots hflag1 hkn _ hLlen hLr
  rw [f15] at k1
  cases k1
  refine ⟨d, f1, f2, hr, hm, f4, f5, f6, hdata, g1, g2, htriple, by rw [g3, map_map]; rfl, k2, k3, hLlen, ?_⟩
  intro j y hy
  rw [trainSamples, ← htriple] at hy
  obtain ⟨l, z, b1, b2, b3⟩ := k4 j y hy
  have hym := mem_of_getElem? hy
  have hyk : ∀ o ∈ M.ops, y.2.1.length = r ∧ InputOK o.kind m y.2.2 ∧ y.1 ∈ ps := by
    intro o ho
    obtain ⟨q1, q2, -, x, hx, hxy⟩ := mem_samples (PSet.OK.dataOK (o := o.kind) (hA.flag o ho) hdata) hym
    obtain ⟨x', hx', rfl⟩ := mem_map.mp hx
    exact ⟨q1, q2, by rw [← hxy, ← g1]; exact mem_map.mpr ⟨x', hx', rfl⟩⟩
  have hkm : ∀ o ∈ M.known, o ∈ M.ops := by
    intro o ho
    obtain ⟨s, hs, rfl⟩ := mem_map.mp ho
    exact mem_map.mpr ⟨s, (mem_filter.mp hs).1, rfl⟩
  have hev : ∀ o ∈ M.known, ∃ op, o.EvalsTo lib y.1 r m op := by
    intro o ho
    have hy1 := (hyk o (hkm o ho)).2.2
    obtain ⟨s, hs, rfl⟩ := mem_map.mp ho
    obtain ⟨h1, h2⟩ := mem_filter.mp hs
    exact hA.known s h1 (by simpa using h2) y.1 hy1
  have hq : ∀ o ∈ M.known, y.2.1.length = r := fun o ho => (hyk o (hkm o ho)).1
  have hlr := hLr l (mem_of_getElem? b1)
  have hzr := k3 z (mem_of_getElem? b2)
  have hwlen := length_sumAt (r := r) hev y.2.1 y.2.2
  refine ⟨l, z, _, by rw [flatMap_def]; exact b1, b2, hlr, hwlen, ?_, ?_, rfl⟩
  · cases hk0 : M.known with
    | nil => exact ⟨[], .nil, rfl⟩
    | cons o os =>
      rw [← hk0]
      exact SumAt.of_evals hev y.2.1 y.2.2 (hq o (by rw [hk0]; exact mem_cons_self))
        (fun o ho => (hyk o (hkm o ho)).2.1)
  · apply ext_getD_zero (by rw [length_vsub, hlr, hwlen, hzr, Nat.min_self])
    intro i
    rw [b3 i, getD_vsub _ _ (by rw [hlr, hwlen]), getD_sumAt hev]
    congr 2
    rw [f2, PModel.known, filter_map, map_map, map_map]
    apply map_congr_left
    intro s hs
    obtain ⟨h1, h2⟩ := mem_filter.mp hs
    have hsi : s.infer = false := by simpa [prepSlot] using h2
    have ho : s.op ∈ M.known := mem_map.mpr ⟨s, mem_filter.mpr ⟨h1, by simp [hsi]⟩, rfl⟩
    obtain ⟨op, hop⟩ := hev s.op ho
    have hf := hop.fill
    rw [hmudim _ (hyk _ (hkm _ ho)).2.2] at hf
    have : (prepSlot d s).op = s.op.fill d := by simp [prepSlot, hsi]
    simp only [Function.comp, this]
    rw [hf.val_eq, hop.val_eq]

end Opinf
