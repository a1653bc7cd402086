import Verif.Lemmas.InterpModel
import Verif.Props.Construct
import Verif.Props.ParamModel
import Verif.Props.Predict

/-!
# C19: interpolatory models, their submodels and the known operators
-/

namespace Opinf

open List

variable {K S : Type}

/-- The operator that the submodel of the `i`-th training parameter starts from: without entries if it is to
be inferred, otherwise with the `i`-th entries. -/
def startOp (i : Nat) (s : PSlot K) : Op K :=
  ⟨s.op.kind, if s.infer then none else match s.op with
    | .itp t => t.entries.bind (·[i]?)
    | _ => none⟩

/-- Arguments for the `fit` of an interpolatory model: as for parametric models, all operators are
interpolated, the interpolator classes interpolate, there is an operator to infer, and the entries of the
known operators have the right shape. -/
structure IFitArgs [Semiring K] [LinearOrder K] (lib : ItpLib K) (M : IModel K S) (ps : List (Par K))
    (states lhs : List (Arg K)) (inputs : Option (List (Arg K))) (r m : Nat) : Prop where
  base : PFitArgs lib M.base ps states lhs inputs r m
  learns : M.base.intrusive = false
  infer : ∃ s ∈ M.base.slots, s.infer = true
  itp : ∀ s ∈ M.base.slots, ∃ t, s.op = .itp t ∧
    (s.infer = false → ∃ As, t.entries = some As ∧ ∀ A ∈ As, t.kind.Fits A r m)
  nodes : ∀ s ∈ M.base.slots, s.op.Learnable lib ps
  /-- the flag for inputs is that of the operators -/
  inputs : M.base.hasInputs = M.base.ops.any fun o => o.kind.hasInputs

theorem copy_fits [Field K] {o : Op K} {r m : Nat} (hr : 0 < r) (h : ∀ E ∈ o.entries, o.kind.Fits E r m) :
    o.copy = .ok o := by
  obtain ⟨k, E⟩ := o
  cases E with
  | none => rfl
  | some E =>
    have := setEntries_fits k E r m hr (h E rfl)
    simp only [Op.copy]
    rw [this]
    rfl

theorem Interp.setEntries_kind [AddMonoid K] [LinearOrder K] (lib : ItpLib K) (t : Interp K)
    (e : EntArg K) : (t.setEntries lib e).1.kind = t.kind := by
  unfold Interp.setEntries
  split
  · rfl
  · split
    · rfl
    · unfold Interp.setInterpolator
      split
      · rfl
      · split
        · rfl
        · split <;> rfl

/-- What a successful `fit` of an interpolatory model leaves behind: the attributes, the submodels and their
relation to the data. -/
theorem ifit_decoupled [Field K] [LinearOrder K] (lib : ItpLib K) (plain : S) (l2 : Int → S)
    (I : SolverI K S) (M M' : IModel K S) (ps : List (Par K)) (states lhs : List (Arg K))
    (inputs : Option (List (Arg K))) (r m : Nat) (hA : IFitArgs lib M ps states lhs inputs r m)
    (hI : I.Shaped r) (hfit : M.fit lib plain l2 I ps states lhs inputs = (M', .ok ())) :
    (∃ Ns, M'.subs = some Ns ∧ Ns.length = ps.length ∧ M'.base.r = some r ∧ M'.base.m = some m ∧
      M'.base.hasInputs = M.base.hasInputs ∧
      ∀ N ∈ Ns, N.ops.map Op.kind = M.base.slots.map (fun s => s.op.kind) ∧ ∀ o ∈ N.ops, o.Cal r m) ∧
    ∀ (i : Nat) mu Q V L,
      (trainData M.base.hasInputs ps states inputs)[i]? = some (mu, Q, V) → lhs[i]? = some L →
      ∃ (N0 N' : Model K S) (Z : List (List K)),
        N0.Inv ∧ N0.intrusive = false ∧ N0.solver = M.base.solver ∧
        N0.slots = M.base.slots.map (fun s => ⟨startOp i s, s.infer⟩) ∧
        N0.fit I (.mat r Q) (.mat r Z) (V.map fun U => .mat m U) = (N', .ok ()) ∧
        (∀ q ∈ Q, q.length = r) ∧ (∀ z ∈ Z, z.length = r) ∧ Z.length = Q.length ∧
        (∀ U ∈ V, U.length = Q.length ∧ ∀ u ∈ U, u.length = m) ∧
        (∀ (j : Nat) y, (dataSamples [(mu, Q, V)])[j]? = some y →
          ∃ l w, (atleast2d L).2[j]? = some l ∧ l.length = r ∧ w.length = r ∧
            SumAt lib M.base.known y.1 y.2.1 y.2.2 r w ∧ Z[j]? = some (vsub l w)) ∧
        Forall₂ (fun s s' => s'.infer = s.infer ∧ s'.op.kind = s.op.kind) M.base.slots M'.base.slots ∧
        (∀ o ∈ N'.ops, o.Cal r m) ∧
        Forall₂ (fun o op => POp.EvalsTo lib o mu r m op) M'.base.ops N'.ops := by
  rw [IModel.fit, if_neg (by simp [hA.learns])] at hfit
  rw [IModel.fitSolver] at hfit
  rcases hp : M.base.processFitArgs lib ps states lhs inputs with ⟨B, x⟩
  rw [hp] at hfit
  cases x with
  | error e => simp at hfit
  | ok t =>
  obtain ⟨data, Z⟩ := t
  obtain ⟨d, f1, f2, f3, f4, f5, f6, f7, f8, f9, f10, f11, -, f12, f13, f14, f15⟩ :=
    process_samples lib M.base B ps states lhs inputs r m hA.base data Z hp
  simp only at hfit
  cases hsol : B.solver with
  | none => rw [hsol] at hfit; simp at hfit
  | some s =>
  rw [hsol] at hfit
  simp only at hfit
  cases hsubs : fitSubs plain l2 I B s 0 data Z with
  | error e => rw [hsubs] at hfit; simp at hfit
  | ok Ns =>
  rw [hsubs] at hfit
  simp only [IModel.refit] at hfit
  rcases hrs : refitSubs I Ns with ⟨Ns', x⟩
  rw [hrs] at hfit
  cases x with
  | error e => simp at hfit
  | ok u =>
  simp only [Prod.mk.injEq] at hfit
  obtain ⟨hM', hok⟩ := hfit
  rcases hre : reinterpolateAll lib ps Ns' 0 B.slots with ⟨slots', x⟩
  rw [hre] at hM' hok
  simp only at hM' hok
  subst hok
  obtain ⟨n1, n2⟩ := fitSubs_ok plain l2 I B s 0 data Z Ns f12.length_eq hsubs
  have n3 := refitSubs_ok I Ns Ns' hrs
  obtain ⟨q1, q2⟩ := reinterpolateAll_ok lib ps Ns' 0 B.slots slots' hre
  have hslots' : M'.base.slots = slots' := by rw [← hM']
  have hun := unflatten (P := fun y l z => ∃ w, l.length = r ∧ w.length = r ∧
    SumAt lib M.base.known y.1 y.2.1 y.2.2 r w ∧ z = vsub l w) f8 f14 f12 (by
      intro j y hy
      obtain ⟨l, z, w, a1, a2, a3, a4, a5, a6, -⟩ := f15 j y (by rw [trainSamples, ← f11]; exact hy)
      exact ⟨l, z, by rw [← flatMap_def]; exact a1, a2, w, a3, a4, a5, a6⟩)
  have hlhslen : lhs.length = data.length := by simpa using f14.length_eq.symm
  -- the submodel of one parameter
  have hsub : ∀ (i : Nat) x z, data[i]? = some x → Z[i]? = some z →
      ∃ (N0 N' : Model K S), Ns'[i]? = some N' ∧ N0.Inv ∧ N0.intrusive = false ∧ N0.solver = some s ∧
        N0.slots = M.base.slots.map (fun s => ⟨startOp i s, s.infer⟩) ∧
        N0.fit I (.mat r x.states) (.mat r z) (x.inputs.map fun U => .mat m U.2) = (N', .ok ()) ∧
        N'.ops.map Op.kind = M.base.slots.map (fun s => s.op.kind) ∧ ∀ o ∈ N'.ops, o.Cal r m := by
    intro i x z hx hz
    obtain ⟨N, hN, hfs⟩ := n2 i x z hx hz
    have hxo := f8 x (mem_of_getElem? hx)
    rw [Nat.zero_add, fitSub] at hfs
    cases hops : B.ops.mapM (subOp i) with
    | error e => rw [hops] at hfs; simp at hfs
    | ok ops =>
    rw [hops] at hfs
    simp only at hfs
    rw [mapM_ok_forall2, PModel.ops, f2, forall₂_map_left_iff, forall₂_map_left_iff] at hops
    have hstart : ∀ sl ∈ M.base.slots, ∀ op, subOp i (prepSlot d sl).op = .ok op → op = startOp i sl := by
      intro sl hsl op hop
      obtain ⟨t, ht, hte⟩ := hA.itp sl hsl
      cases hinf : sl.infer with
      | true =>
        have : (prepSlot d sl).op = .itp { t.clear with p := some d } := by
          simp [prepSlot, hinf, ht, POp.clear, POp.fill, Interp.clear]
        rw [this] at hop
        simp only [subOp, Interp.clear, Except.ok.injEq] at hop
        rw [← hop, startOp, hinf, ht]
        rfl
      | false =>
        obtain ⟨As, hAs, -⟩ := hte hinf
        have hpe : ∃ t', (prepSlot d sl).op = .itp t' ∧ t'.entries = some As ∧ t'.kind = t.kind := by
          simp only [prepSlot, hinf, Bool.false_eq_true, if_false, ht, POp.fill]
          split
          · exact ⟨_, rfl, hAs, rfl⟩
          · exact ⟨_, rfl, hAs, rfl⟩
        obtain ⟨t', e1, e2, e3⟩ := hpe
        rw [e1] at hop
        simp only [subOp, e2] at hop
        cases hAi : As[i]? with
        | none => rw [hAi] at hop; simp at hop
        | some A =>
          rw [hAi] at hop
          simp only [Except.ok.injEq] at hop
          rw [← hop, startOp, hinf, ht]
          simp [hAs, hAi, POp.kind, e3]
    have hopseq : ops = M.base.slots.map (startOp i) := by
      apply Eq.symm
      have : M.base.slots.map (startOp i) = ops.map id := by
        rw [forall₂_iff_get] at hops
        apply ext_getElem (by simpa using hops.1)
        intro k h1 h2
        rw [length_map] at h1 h2
        rw [getElem_map, getElem_map]
        exact (hstart _ (getElem_mem _) _ (hops.2 k h1 h2)).symm
      rw [this, map_id]
    have hfits : ∀ o ∈ ops, ∀ E ∈ o.entries, o.kind.Fits E r m := by
      intro o ho E hE
      rw [hopseq] at ho
      obtain ⟨sl, hsl, rfl⟩ := mem_map.mp ho
      obtain ⟨t, ht, hte⟩ := hA.itp sl hsl
      cases hinf : sl.infer with
      | true => simp [startOp, hinf] at hE
      | false =>
        obtain ⟨As, hAs, hAf⟩ := hte hinf
        simp only [startOp, hinf, ht, hAs, Bool.false_eq_true, if_false, Option.bind_some] at hE
        have := hAf E (mem_of_getElem? hE)
        simpa [startOp, ht, POp.kind] using this
    have hcopy : ops.mapM Op.copy = .ok ops := by
      rw [mapM_ok_forall2, forall₂_same]
      intro o ho
      exact copy_fits hA.base.r_pos (hfits o ho)
    rw [hcopy] at hfs
    simp only at hfs
    cases hcon : Model.construct plain l2 (ops.map OpArg.op) (.obj s) with
    | error e => rw [hcon] at hfs; simp at hfs
    | ok N0 =>
    rw [hcon] at hfs
    simp only at hfs
    obtain ⟨c1, c2, -, -, -, c6, c7⟩ := C57_construct_reports plain l2 _ _ N0 hcon
    rw [mapM_resolve_op, Except.ok.injEq] at c1
    have hgood : ∀ o ∈ N0.ops, o.Good := by
      intro o ho E hE
      rw [← c1] at ho
      have := hfits o ho E hE
      exact ⟨by rw [this.2.1]; exact hA.base.r_pos, m, by rw [this.2.1]; exact this⟩
    have hInv := c7 hgood
    have hint0 : N0.intrusive = false := by
      cases hi : N0.intrusive with
      | false => rfl
      | true =>
        exfalso
        obtain ⟨sl, hsl, hinf⟩ := hA.infer
        have hmem : startOp i sl ∈ N0.ops := by rw [← c1, hopseq]; exact mem_map.mpr ⟨sl, hsl, rfl⟩
        exact c6.mp hi _ hmem (by simp [startOp, hinf])
    have hslots0 : N0.slots = M.base.slots.map (fun s => ⟨startOp i s, s.infer⟩) := by
      have h1 : N0.slots = N0.ops.map fun o => ⟨o, o.entries.isNone⟩ := by
        rw [Model.ops, map_map]
        conv_lhs => rw [← map_id N0.slots]
        apply map_congr_left
        intro sl hsl
        have := c2 sl hsl
        simp only [id, Function.comp]
        rw [← this]
      rw [h1, ← c1, hopseq, map_map]
      apply map_congr_left
      intro sl hsl
      simp only [Function.comp]
      congr 1
      obtain ⟨t, ht, hte⟩ := hA.itp sl hsl
      cases hinf : sl.infer with
      | true => simp [startOp, hinf]
      | false =>
        obtain ⟨As, hAs, -⟩ := hte hinf
        have hmem : startOp i sl ∈ ops := by rw [hopseq]; exact mem_map.mpr ⟨sl, hsl, rfl⟩
        -- the `i`-th entries exist, because `subOp` succeeded
        obtain ⟨k, hk, hke⟩ := mem_iff_getElem.mp hsl
        have hk' : k < ops.length := by rw [← hops.length_eq]; exact hk
        have hso := (forall₂_iff_get.mp hops).2 k hk hk'
        simp only [get_eq_getElem] at hso
        rw [hke] at hso
        have hse := hstart sl hsl _ hso
        have hpe : ∃ t', (prepSlot d sl).op = .itp t' ∧ t'.entries = some As := by
          simp only [prepSlot, hinf, Bool.false_eq_true, if_false, ht, POp.fill]
          split
          · exact ⟨_, rfl, hAs⟩
          · exact ⟨_, rfl, hAs⟩
        obtain ⟨t', e1, e2⟩ := hpe
        rw [e1] at hso
        simp only [subOp, e2] at hso
        cases hAi : As[i]? with
        | none => rw [hAi] at hso; simp at hso
        | some A => simp [startOp, hinf, ht, hAs, hAi]
    rcases hfs0 : N0.fitSolver I (.mat x.n x.states) (.mat x.n z) (x.inputs.map fun U => .mat U.1 U.2) with
      ⟨N1, y⟩
    rw [hfs0] at hfs
    cases y with
    | error e => simp [finish] at hfs
    | ok u =>
    have hN1 : N1 = N := by simpa [finish] using hfs
    subst hN1
    have hi' : i < Ns'.length := by rw [← n3.length_eq]; exact (List.getElem?_eq_some_iff.mp hN).1
    have hrefit := forall₂_getElem? n3 hN (getElem?_eq_getElem hi')
    have hinp : (x.inputs.map fun U => Arg.mat U.1 U.2) = x.inputs.map fun U => .mat m U.2 := by
      cases hxi : x.inputs with
      | none => rfl
      | some U => rw [Option.map_some, Option.map_some, (hxo.2.2.1 U hxi).1]
    rw [hinp, hxo.1] at hfs0
    have hfit0 : N0.fit I (.mat r x.states) (.mat r z) (x.inputs.map fun U => .mat m U.2)
        = (Ns'[i], .ok ()) := by
      rw [Model.fit, if_neg (by simp [hint0]), hfs0]
      exact hrefit
    have hzw : ∀ c ∈ z, c.length = r :=
      fun c hc => f13 c (mem_flatten.mpr ⟨z, mem_of_getElem? hz, hc⟩)
    have hcal := fit_cal I N0 hInv hint0 (.mat r x.states) (.mat r z) (x.inputs.map fun U => .mat m U.2)
      hxo.2.1 hzw (by
        intro a ha
        obtain ⟨U, hU, rfl⟩ := Option.mem_map.mp ha
        exact (hxo.2.2.1 U hU).2.2) hA.base.r_pos hI _ hfit0 m (by
        intro _ a ha
        obtain ⟨U, hU, rfl⟩ := Option.mem_map.mp ha
        rfl)
    refine ⟨N0, Ns'[i], getElem?_eq_getElem hi', hInv, hint0, construct_solver plain l2 _ s N0 hcon hint0,
      hslots0, hfit0, ?_, hcal.2⟩
    rw [hcal.1, ← c1, hopseq, map_map]
    rfl
  have hlenN : Ns'.length = data.length := by rw [← n3.length_eq, n1]
  refine ⟨⟨Ns', by rw [← hM'], by rw [hlenN, f10], by rw [← hM']; exact f3, by rw [← hM']; exact f4,
    by rw [← hM']; exact f5, ?_⟩, ?_⟩
  · intro N hN
    obtain ⟨i, hi, rfl⟩ := mem_iff_getElem.mp hN
    have hid : i < data.length := by rw [← hlenN]; exact hi
    obtain ⟨-, N3, k1, -, -, -, -, -, k2, k3⟩ := hsub i _ _ (getElem?_eq_getElem hid)
      (getElem?_eq_getElem (by rw [← f12.length_eq]; exact hid))
    rw [getElem?_eq_getElem hi, Option.some.injEq] at k1
    rw [k1]
    exact ⟨k2, k3⟩
  intro i mu Q V L hi hLi
  have hid : i < data.length := by
    have := (List.getElem?_eq_some_iff.mp hi).1
    rw [← f11, length_map] at this
    exact this
  obtain ⟨x, hx⟩ : ∃ x, data[i]? = some x := ⟨_, getElem?_eq_getElem hid⟩
  obtain ⟨z, hz⟩ : ∃ z, Z[i]? = some z := ⟨_, getElem?_eq_getElem (by rw [← f12.length_eq]; exact hid)⟩
  have hxt : x.triple = (mu, Q, V) := by
    rw [← f11, getElem?_map, hx] at hi
    simpa using hi
  have hxmu : x.mu = mu := congrArg Prod.fst hxt
  have hxQ : x.states = Q := congrArg (fun p => p.2.1) hxt
  have hxV : x.inputs.map Prod.snd = V := congrArg (fun p => p.2.2) hxt
  have hxo := f8 x (mem_of_getElem? hx)
  obtain ⟨N0, N', g1, g2, g3, g4, g5, g6, g7, g8⟩ := hsub i x z hx hz
  have hV : (V.map fun U => Arg.mat m U) = x.inputs.map fun U => .mat m U.2 := by
    rw [← hxV, Option.map_map]; rfl
  have hmui : ps[i]? = some mu := by
    have : (data.map PSet.mu)[i]? = some mu := by rw [getElem?_map, hx, Option.map_some, hxmu]
    rw [f9] at this; exact this
  refine ⟨N0, N', z, g2, g3, by rw [g4, ← hsol, f7], g5, by rw [hV, ← hxQ]; exact g6, ?_, ?_, ?_, ?_, ?_, ?_, g8,
    ?_⟩
  · rw [← hxQ]; exact hxo.2.1
  · exact fun c hc => f13 c (mem_flatten.mpr ⟨z, mem_of_getElem? hz, hc⟩)
  · rw [← hxQ]; exact forall₂_getElem? f12 hx hz
  · intro U hU
    rw [← hxV] at hU
    obtain ⟨W, hW, rfl⟩ := Option.mem_map.mp hU
    rw [← hxQ]
    exact (hxo.2.2.1 W hW).2
  · intro j y hy
    rw [← hxt] at hy
    obtain ⟨l, c, a1, a2, w, a3, a4, a5, a6⟩ := hun i x _ z hx (by rw [getElem?_map, hLi]; rfl) hz j y hy
    exact ⟨l, w, a1, a3, a4, a5, by rw [a2, a6]⟩
  · rw [hslots', forall₂_iff_get]
    refine ⟨by rw [q1, f2, length_map], fun k h1 h2 => ?_⟩
    obtain ⟨o, b1, b2⟩ := q2 k (prepSlot d (M.base.slots.get ⟨k, h1⟩)) (by
      rw [f2, getElem?_map, get_eq_getElem, getElem?_eq_getElem h1]; rfl)
    rw [getElem?_eq_getElem h2, Option.some.injEq] at b1
    have hg : slots'.get ⟨k, h2⟩ = _ := b1
    rw [hg]
    refine ⟨rfl, ?_⟩
    have hkind : ∀ (Ms : List (Model K S)) ell (p : POp K) o', reinterpolate lib ps Ms ell p = (o', .ok ()) →
        o'.kind = p.kind := by
      intro Ms ell p o' h
      unfold reinterpolate at h
      split at h
      · rename_i t
        split at h
        · simp at h
        · rename_i t' ht'
          obtain ⟨-, P, -, rfl⟩ := setParams_ok ht'
          split at h
          · simp at h
          · simp only [Prod.mk.injEq] at h
            rw [← h.1]
            exact Interp.setEntries_kind lib _ _
      · simp at h
    rw [hkind _ _ _ _ b2, prepSlot_kind]
  · -- evaluation at the training parameter
    have hlen : N'.ops.length = M.base.slots.length := by
      have := congrArg length g7
      simpa using this
    rw [PModel.ops, hslots', forall₂_map_left_iff, forall₂_iff_get]
    refine ⟨by rw [q1, f2, length_map, hlen], fun k h1 h2 => ?_⟩
    have hk : k < M.base.slots.length := by rw [← hlen]; exact h2
    obtain ⟨t, ht, -⟩ := hA.itp _ (getElem_mem hk)
    have hpk : B.slots[k]? = some (prepSlot d M.base.slots[k]) := by
      rw [f2, getElem?_map, getElem?_eq_getElem hk]; rfl
    obtain ⟨o, b1, b2⟩ := q2 k _ hpk
    rw [getElem?_eq_getElem h1, Option.some.injEq] at b1
    have hpe : ∃ t', (prepSlot d M.base.slots[k]).op = .itp t' ∧ t'.kind = t.kind ∧ t'.cls = t.cls := by
      cases hinf : M.base.slots[k].infer with
      | true => exact ⟨{ t.clear with p := some d }, by
          simp [prepSlot, hinf, ht, POp.clear, POp.fill, Interp.clear], rfl, rfl⟩
      | false =>
        simp only [prepSlot, hinf, ht, Bool.false_eq_true, if_false, POp.fill]
        split
        · exact ⟨_, rfl, rfl, rfl⟩
        · exact ⟨_, rfl, rfl, rfl⟩
    obtain ⟨t', e1, e2, e3⟩ := hpe
    rw [e1, Nat.zero_add] at b2
    simp only [reinterpolate] at b2
    cases hsp : t'.clear.setParams ps with
    | error e => rw [hsp] at b2; simp at b2
    | ok t2 =>
    rw [hsp] at b2
    simp only at b2
    obtain ⟨-, P, hP, rfl⟩ := setParams_ok hsp
    cases hse : subEntries k Ns' with
    | error e => rw [hse] at b2; simp at b2
    | ok As =>
    rw [hse] at b2
    simp only [Prod.mk.injEq] at b2
    obtain ⟨s1, s2⟩ := subEntries_ok k Ns' As hse
    have hNlen : Ns'.length = ps.length := by rw [← n3.length_eq, n1, f10]
    have hkind : ∀ (i' : Nat) N'', Ns'[i']? = some N'' →
        N''.ops.map Op.kind = M.base.slots.map (fun s => s.op.kind) ∧ ∀ o ∈ N''.ops, o.Cal r m := by
      intro i' N'' hN''
      have hi'' : i' < data.length := by
        rw [f10, ← hNlen]; exact (List.getElem?_eq_some_iff.mp hN'').1
      obtain ⟨-, N3, k1, -, -, -, -, -, k2, k3⟩ := hsub i' _ _ (getElem?_eq_getElem hi'')
        (getElem?_eq_getElem (by rw [← f12.length_eq]; exact hi''))
      rw [hN'', Option.some.injEq] at k1
      subst k1
      exact ⟨k2, k3⟩
    have hfitsA : ∀ A ∈ As, t.kind.Fits A r m := by
      intro A hAm
      obtain ⟨i', hi', rfl⟩ := mem_iff_getElem.mp hAm
      have hN'' := getElem?_eq_getElem (l := Ns') (i := i') (by rw [← s1]; exact hi')
      obtain ⟨o', A', k1, k2, k3⟩ := s2 i' _ hN''
      obtain ⟨h3, h4⟩ := hkind i' _ hN''
      obtain ⟨E, hE, hF⟩ := h4 o' (mem_of_getElem? k1)
      rw [getElem?_eq_getElem hi', Option.some.injEq] at k3
      have hko : o'.kind = t.kind := by
        have := congrArg (fun l => l[k]?) h3
        simp only [getElem?_map, k1, getElem?_eq_getElem hk, ht, Option.map_some, Option.some.injEq] at this
        exact this
      rw [k3, ← hko]
      rw [k2, Option.some.injEq] at hE
      rw [hE]; exact hF
    obtain ⟨o', A', k1, k2, k3⟩ := s2 i N' g1
    have hset : Interp.setEntries lib { t'.clear with params := some P, p := some P.dim } (.list As)
        = (_, .ok ()) := Prod.ext rfl b2.2
    obtain ⟨r1, r2⟩ := setList_node lib _ _ ps P hP rfl rfl (by
      have := hA.nodes _ (getElem_mem hk)
      rw [ht] at this
      obtain ⟨w1, w2, w3⟩ := this
      refine ⟨w1, ?_, ?_⟩
      · show ∀ c ∈ t'.cls, _
        rw [e3]; exact w2
      · show t'.cls = none → _
        rw [e3]; exact w3) r m hA.base.r_pos As (by rw [s1, hNlen]) (by
        intro A hAm
        show t'.kind.Fits A r m
        rw [e2]; exact hfitsA A hAm) hset i mu A' hmui k3
    rw [get_eq_getElem, b1]
    simp only
    rw [← b2.1]
    have hoo : N'.ops.get ⟨k, h2⟩ = ⟨t'.kind, some A'⟩ := by
      rw [get_eq_getElem]
      rw [getElem?_eq_getElem h2, Option.some.injEq] at k1
      simp only at k1 ⊢
      rw [k1]
      have hko : o'.kind = t.kind := by
        have := congrArg (fun l => l[k]?) g7
        simp only [getElem?_map, getElem?_eq_getElem h2, getElem?_eq_getElem hk, ht, Option.map_some,
          Option.some.injEq] at this
        rw [← k1]; exact this
      obtain ⟨kk, ee⟩ := o'
      simp only at hko k2
      rw [hko, k2, e2]
    rw [hoo]
    exact r1

/-- **C19, the decoupling.** After a successful `fit` of an interpolatory model, for every training
parameter `mu` with its data there is an ordinary model `N0` with the solver of the interpolatory model,
whose operators are the `i`-th entries of the known operators and otherwise to be inferred, which was fitted
successfully to the data of `mu` with left-hand sides from which the known operators at `mu` have already
been subtracted; and `evaluate(mu)` has exactly the operators of the resulting model. -/
theorem C19_decouples [Field K] [LinearOrder K] (lib : ItpLib K) (plain : S) (l2 : Int → S)
    (I : SolverI K S) (M M' : IModel K S) (ps : List (Par K)) (states lhs : List (Arg K))
    (inputs : Option (List (Arg K))) (r m : Nat) (hA : IFitArgs lib M ps states lhs inputs r m)
    (hI : I.Shaped r) (hfit : M.fit lib plain l2 I ps states lhs inputs = (M', .ok ())) :
    ∀ (i : Nat) mu Q V L,
      (trainData M.base.hasInputs ps states inputs)[i]? = some (mu, Q, V) → lhs[i]? = some L →
      ∃ (N0 N' : Model K S) (Z : List (List K)),
        N0.Inv ∧ N0.intrusive = false ∧ N0.solver = M.base.solver ∧
        N0.slots = M.base.slots.map (fun s => ⟨startOp i s, s.infer⟩) ∧
        N0.fit I (.mat r Q) (.mat r Z) (V.map fun U => .mat m U) = (N', .ok ()) ∧
        (∀ q ∈ Q, q.length = r) ∧ (∀ z ∈ Z, z.length = r) ∧ Z.length = Q.length ∧
        (∀ U ∈ V, U.length = Q.length ∧ ∀ u ∈ U, u.length = m) ∧
        (∀ (j : Nat) y, (dataSamples [(mu, Q, V)])[j]? = some y →
          ∃ l w, (atleast2d L).2[j]? = some l ∧ l.length = r ∧ w.length = r ∧
            SumAt lib M.base.known y.1 y.2.1 y.2.2 r w ∧ Z[j]? = some (vsub l w)) ∧
        Forall₂ (fun s s' => s'.infer = s.infer ∧ s'.op.kind = s.op.kind) M.base.slots M'.base.slots ∧
        (∀ o ∈ N'.ops, o.Cal r m) ∧
        Forall₂ (fun o op => POp.EvalsTo lib o mu r m op) M'.base.ops N'.ops :=
  (ifit_decoupled lib plain l2 I M M' ps states lhs inputs r m hA hI hfit).2

/-- A sample of one data set. -/
theorem dataSamples_one {α β γ : Type} (mu : α) (Q : List (List β)) (V : Option (List (List γ))) (j : Nat) (y)
    (h : (dataSamples [(mu, Q, V)])[j]? = some y) :
    j < Q.length ∧ y = (mu, Q.getD j [], V.map fun U => U.getD j []) := by
  cases V with
  | none =>
    simp only [dataSamples, flatMap_cons, flatMap_nil, append_nil, getElem?_map, Option.map_eq_some_iff] at h
    obtain ⟨q, h1, rfl⟩ := h
    exact ⟨(List.getElem?_eq_some_iff.mp h1).1, by simp [getD_eq_getElem?_getD, h1]⟩
  | some U =>
    simp only [dataSamples, flatMap_cons, flatMap_nil, append_nil, getElem?_map, Option.map_eq_some_iff] at h
    obtain ⟨⟨q, u⟩, h1, rfl⟩ := h
    rw [getElem?_zip_eq_some] at h1
    exact ⟨(List.getElem?_eq_some_iff.mp h1.1).1, by simp [getD_eq_getElem?_getD, h1.1, h1.2]⟩

/-- A parametric model whose operators evaluate to those of a nonparametric model has its right-hand side. -/
theorem rhs_of_evals [CommSemiring K] (lib : ItpLib K) (M : PModel K S) (N : Model K S) (mu : Par K)
    (r m : Nat) (hr : 0 < r) (hne : M.slots ≠ [])
    (h : Forall₂ (fun o op => POp.EvalsTo lib o mu r m op) M.ops N.ops) (q : List K) (u : Option (List K)) :
    (M.rhs lib mu q u).2 = N.rhs q u := by
  have hex : ∀ s ∈ M.slots, ∃ op, s.op.EvalsTo lib mu r m op := by
    intro s hs
    rw [PModel.ops, forall₂_map_left_iff] at h
    obtain ⟨k, hk, rfl⟩ := mem_iff_getElem.mp hs
    exact ⟨_, (forall₂_iff_get.mp h).2 k hk (h.length_eq ▸ hk)⟩
  obtain ⟨slots', ops, h1, h2, -⟩ := evalOps_ok lib mu r m M.slots hex
  have h2' : Forall₂ (fun o op => POp.EvalsTo lib o mu r m op) M.ops ops := by
    rw [PModel.ops, forall₂_map_left_iff]; exact h2
  have heq : ops = N.ops := by
    rw [forall₂_iff_get] at h h2'
    apply ext_getElem (by rw [← h.1, ← h2'.1])
    intro k k1 k2
    have a := (h.2 k (h.1 ▸ k2) k2).1
    have b := (h2'.2 k (h.1 ▸ k2) k1).1
    simp only [get_eq_getElem] at a b
    rw [a] at b
    exact (Except.ok.inj b).symm
  have hcal : ∀ op ∈ ops, op.Cal r m := by
    intro op hop
    obtain ⟨o, -, ho⟩ := forall₂_mem_right h2' hop
    exact ho.2.2
  have hne' : ops ≠ [] := by
    rintro rfl
    exact hne (forall₂_nil_right_iff.mp h2)
  obtain ⟨N1, hN, n1, -⟩ := frozen_ok (S := S) ops r m hr hne' hcal
  have hev : (M.evaluate lib mu).2 = .ok N1 := by
    simp only [PModel.evaluate, h1, hN]
  simp only [PModel.rhs, hev, Model.rhs, n1, heq]

/-- The known operators of the submodel of the `i`-th training parameter. -/
def IModel.knownSub (M : IModel K S) (i : Nat) : Model K S :=
  ⟨(M.base.slots.filter fun s => !s.infer).map fun s => ⟨startOp i s, s.infer⟩, M.base.hasInputs, none, none,
    true, none⟩

/-- **C19 (negation, in general).** After a successful `fit` of an interpolatory model, with `D` and `Z` what
the solver was given for the `i`-th training parameter `mu` and `O` its solution: `Z_j` is the given
left-hand side minus *both* the contribution `w` of the known operators at `mu` and the contribution `w'` of
their `i`-th entries; and the residual of the regression is not the residual `lhs_j - v` of the fitted model,
`v = rhs(mu, q_j, u_j)`, but `lhs_j - w - v`. -/
theorem C19_twice [Field K] [LinearOrder K] (lib : ItpLib K) (plain : S) (l2 : Int → S)
    (I : SolverI K S) (M M' : IModel K S) (ps : List (Par K)) (states lhs : List (Arg K))
    (inputs : Option (List (Arg K))) (r m : Nat) (hA : IFitArgs lib M ps states lhs inputs r m)
    (hI : I.Shaped r) (hfit : M.fit lib plain l2 I ps states lhs inputs = (M', .ok ())) :
    ∀ (i : Nat) mu Q V L,
      (trainData M.base.hasInputs ps states inputs)[i]? = some (mu, Q, V) → lhs[i]? = some L →
      ∃ (s : S) (D O : Mat K) (Z : List (List K)),
        M.base.solver = some s ∧ (I.fit s D Z).2 = .ok () ∧ I.solve (I.fit s D Z).1 = .ok O ∧
        D.WF ∧ O.WF ∧ D.nrows = Q.length ∧ Z.length = Q.length ∧ O.nrows = r ∧ O.ncols = D.ncols ∧
        ∀ (j : Nat) y, (dataSamples [(mu, Q, V)])[j]? = some y →
          ∃ l d w w' v, (atleast2d L).2[j]? = some l ∧ D.rows[j]? = some d ∧
            SumAt lib M.base.known mu y.2.1 y.2.2 r w ∧ (M.knownSub i).rhs y.2.1 y.2.2 = .ok w' ∧
            (M'.base.rhs lib mu y.2.1 y.2.2).2 = .ok v ∧
            l.length = r ∧ w.length = r ∧ v.length = r ∧
            Z[j]? = some (vsub (vsub l w) w') ∧
            vsub (vsub (vsub l w) w') (matVec O.rows d) = vsub (vsub l w) v := by
  intro i mu Q V L hi hL
  obtain ⟨N0, N', Z0, a1, a2, a3, a4, a5, a6, a7, a8, a9, a10, a11, a12, a13⟩ :=
    C19_decouples lib plain l2 I M M' ps states lhs inputs r m hA hI hfit i mu Q V L hi hL
  obtain ⟨s, D, O, Z, b1, -, b3, b4, b5, -, b7, b8, b9, b10, b11, b12, -, b14⟩ :=
    C13_fit_residual I N0 a1 a2 (.mat r Q) (.mat r Z0) (V.map fun U => .mat m U) a6 a7 (by
      intro a ha
      obtain ⟨U, hU, rfl⟩ := Option.mem_map.mp ha
      exact (a9 U hU).2) hA.base.r_pos hI N' a5
  simp only [atleast2d] at b4 b5 b9 b11 b14
  refine ⟨s, D, O, Z, by rw [← a3, b1], b7, b3, b8, b10, b9, b5, b11, b12, ?_⟩
  intro j y hy
  obtain ⟨hj, hyeq⟩ := dataSamples_one mu Q V j y hy
  obtain ⟨l, w, c1, c2, c3, c4, c5⟩ := a10 j y hy
  obtain ⟨-, v, w', d1, d2, d3, d4, d5⟩ := b14 j hj
  have hin : inputAt (V.map fun U => Arg.mat m U) j = y.2.2 := by
    rw [hyeq, inputAt, Option.map_map]; rfl
  have hq : Q.getD j [] = y.2.1 := by rw [hyeq]
  have hmu : y.1 = mu := by rw [hyeq]
  rw [hin, hq] at d1 d2
  have hz0 : Z0.getD j [] = vsub l w := by rw [getD_eq_getElem?_getD, c5]; rfl
  rw [hz0] at d3 d5
  have hZj : Z[j]? = some (Z.getD j []) := by
    rw [getD_eq_getElem _ _ (by rw [b5]; exact hj), getElem?_eq_getElem]
  have hDj : D.rows[j]? = some (D.rows.getD j []) := by
    rw [getD_eq_getElem _ _ (by rw [b4]; exact hj), getElem?_eq_getElem]
  have hne : M'.base.slots ≠ [] := by
    intro h0
    rw [h0] at a11
    exact hA.base.slots_ne (forall₂_nil_right_iff.mp a11)
  have hsub : (M.knownSub i).rhs y.2.1 y.2.2 = .ok w' := by
    rw [← d2]
    have : (M.knownSub i).ops = N0.knownPart.ops := by
      rw [Model.ops, Model.ops, Model.knownPart, IModel.knownSub, a4, filter_map]
      rfl
    simp only [Model.rhs, this]
  have hv : v.length = r := by
    rw [rhs_length N' d1, ← hq, getD_eq_getElem _ _ hj]
    exact a6 _ (getElem_mem _)
  refine ⟨l, _, w, w', v, c1, hDj, by rw [← hmu]; exact c4, hsub, ?_, c2, c3, hv, by rw [hZj, d3], by
    rw [← d3]; exact d5⟩
  rw [rhs_of_evals lib M'.base N' mu r m hA.base.r_pos hne a13]
  exact d1

theorem vsub_zeros [Field K] (r : Nat) (l : List K) (h : l.length = r) : vsub l (replicate r 0) = l := by
  apply ext_getD_zero (by rw [length_vsub, length_replicate, h, Nat.min_self])
  intro i
  rw [getD_vsub _ _ (by rw [length_replicate, h])]
  have : (replicate r (0 : K)).getD i 0 = 0 := by
    simp only [getD_eq_getElem?_getD, getElem?_replicate]; split <;> rfl
  rw [this, sub_zero]

/-- **C19 (negation).** Whenever the known operators contribute anything to a training sample, the residual
`l - w - v` of the regression is different from the residual `l - v` of the fitted model. -/
theorem C19_residual_wrong [Field K] (r : Nat) (l w v : List K) (hl : l.length = r) (hw : w.length = r)
    (hv : v.length = r) (h : w ≠ replicate r 0) : vsub (vsub l w) v ≠ vsub l v := by
  intro heq
  apply h
  apply ext_getD_zero (by rw [hw, length_replicate])
  intro i
  have : (vsub (vsub l w) v).getD i 0 = (vsub l v).getD i 0 := by rw [heq]
  rw [getD_vsub _ _ (by rw [length_vsub, hl, hw, hv, Nat.min_self]), getD_vsub _ _ (by rw [hl, hw]),
    getD_vsub _ _ (by rw [hl, hv])] at this
  have hz : (replicate r (0 : K)).getD i 0 = 0 := by
    simp only [getD_eq_getElem?_getD, getElem?_replicate]; split <;> rfl
  rw [hz]
  have h2 : l.getD i 0 - w.getD i 0 = l.getD i 0 := by
    have := congrArg (· + v.getD i 0) this
    simpa using this
  exact sub_eq_self.mp h2

/-- **C19, what holds.** Without known operators the fit of an interpolatory model is the stated regression:
for every training parameter the left-hand side given to the solver is the given one and the residual of the
regression is the residual of the fitted model. -/
theorem C19_exact_partial [Field K] [LinearOrder K] (lib : ItpLib K) (plain : S) (l2 : Int → S)
    (I : SolverI K S) (M M' : IModel K S) (ps : List (Par K)) (states lhs : List (Arg K))
    (inputs : Option (List (Arg K))) (r m : Nat) (hA : IFitArgs lib M ps states lhs inputs r m)
    (hI : I.Shaped r) (hfit : M.fit lib plain l2 I ps states lhs inputs = (M', .ok ()))
    (hall : ∀ s ∈ M.base.slots, s.infer = true) :
    ∀ (i : Nat) mu Q V L,
      (trainData M.base.hasInputs ps states inputs)[i]? = some (mu, Q, V) → lhs[i]? = some L →
      ∃ (s : S) (D O : Mat K) (Z : List (List K)),
        M.base.solver = some s ∧ (I.fit s D Z).2 = .ok () ∧ I.solve (I.fit s D Z).1 = .ok O ∧
        D.WF ∧ O.WF ∧ D.nrows = Q.length ∧ Z.length = Q.length ∧ O.nrows = r ∧ O.ncols = D.ncols ∧
        ∀ (j : Nat) y, (dataSamples [(mu, Q, V)])[j]? = some y →
          ∃ l d v, (atleast2d L).2[j]? = some l ∧ D.rows[j]? = some d ∧
            (M'.base.rhs lib mu y.2.1 y.2.2).2 = .ok v ∧ Z[j]? = some l ∧
            vsub l (matVec O.rows d) = vsub l v := by
  intro i mu Q V L hi hL
  obtain ⟨s, D, O, Z, b1, b2, b3, b4, b5, b6, b7, b8, b9, b10⟩ :=
    C19_twice lib plain l2 I M M' ps states lhs inputs r m hA hI hfit i mu Q V L hi hL
  refine ⟨s, D, O, Z, b1, b2, b3, b4, b5, b6, b7, b8, b9, fun j y hy => ?_⟩
  obtain ⟨l, d, w, w', v, c1, c2, c3, c4, c5, c6, c7, c8, c9, c10⟩ := b10 j y hy
  have hf : M.base.slots.filter (fun s => !s.infer) = [] := by
    rw [filter_eq_nil_iff]; intro s hs; simp [hall s hs]
  have hw : w = replicate r 0 := by
    rw [PModel.known, hf] at c3
    obtain ⟨ws, h1, h2⟩ := c3
    rw [map_nil, forall₂_nil_left_iff] at h1
    rw [h2, h1, foldl_nil]
  have hqr : y.2.1.length = r := by
    obtain ⟨hj, hyeq⟩ := dataSamples_one mu Q V j y hy
    obtain ⟨-, -, -, -, -, -, -, -, a6, -⟩ :=
      C19_decouples lib plain l2 I M M' ps states lhs inputs r m hA hI hfit i mu Q V L hi hL
    rw [hyeq]
    simp only
    rw [getD_eq_getElem _ _ hj]
    exact a6 _ (getElem_mem _)
  have hw' : w' = replicate r 0 := by
    have : (M.knownSub i).ops = [] := by rw [Model.ops, IModel.knownSub, hf]; rfl
    rw [Model.rhs, this, hqr] at c4
    exact (Except.ok.inj c4).symm
  rw [hw, vsub_zeros r l c6] at c9 c10
  rw [hw', vsub_zeros r l c6] at c9 c10
  exact ⟨l, d, v, c1, c2, c5, c9, c10⟩

/-- If the known operators evaluate at the `i`-th training parameter to their `i`-th entries (which is the
case when they were given at the parameters of the training data), both subtractions are the same. -/
theorem C19_same_twice [Field K] [LinearOrder K] (lib : ItpLib K) (M : IModel K S) (mu : Par K) (i r m : Nat)
    (h : ∀ s ∈ M.base.slots, s.infer = false → s.op.EvalsTo lib mu r m (startOp i s)) (q : List K)
    (u : Option (List K)) (hq : q.length = r)
    (hu : ∀ s ∈ M.base.slots, InputOK s.op.kind m u) (w w' : List K)
    (hw : SumAt lib M.base.known mu q u r w) (hw' : (M.knownSub i).rhs q u = .ok w') : w' = w := by
  have hmem : ∀ s ∈ M.base.slots.filter (fun s => !s.infer), s ∈ M.base.slots ∧ s.infer = false := by
    intro s hs
    obtain ⟨h1, h2⟩ := mem_filter.mp hs
    exact ⟨h1, by simpa using h2⟩
  have h1 := SumAt.of_evals (lib := lib) (ops := M.base.known) (mu := mu) (r := r) (m := m) (by
    intro o ho
    obtain ⟨s, hs, rfl⟩ := mem_map.mp ho
    exact ⟨_, h s (hmem s hs).1 (hmem s hs).2⟩) q u hq (by
    intro o ho
    obtain ⟨s, hs, rfl⟩ := mem_map.mp ho
    exact hu s (hmem s hs).1)
  rw [hw.unique h1]
  have hops : (M.knownSub i).ops = (M.base.slots.filter fun s => !s.infer).map (startOp i) := by
    rw [Model.ops, IModel.knownSub, map_map]; rfl
  rw [rhs_eq (M.knownSub i) r m (by
      rw [hops]
      intro o ho
      obtain ⟨s, hs, rfl⟩ := mem_map.mp ho
      exact (h s (hmem s hs).1 (hmem s hs).2).2.2) q u hq (by
      rw [hops]
      intro o ho
      obtain ⟨s, hs, rfl⟩ := mem_map.mp ho
      exact hu s (hmem s hs).1)] at hw'
  rw [← Except.ok.inj hw', rhsVal, hops, PModel.known, map_map, map_map]
  congr 1
  apply map_congr_left
  intro s hs
  rw [Function.comp_apply, Function.comp_apply, (h s (hmem s hs).1 (hmem s hs).2).val_eq]

/-! ### A concrete model -/

/-- Least squares with one unknown: one column of data, one row of left-hand sides. (With more columns it
still answers with a matrix of the right shape.) -/
def oneSolver : SolverI ℚ (Option (ℚ × Nat)) where
  fit := fun _ D Z =>
    (some (((zipWith (fun d z => d.headD 0 * z.headD 0) D.rows Z).sum)
        / (D.rows.map fun d => d.headD 0 * d.headD 0).sum, D.ncols), .ok ())
  solve := fun s => match s with
    | none => .error .attribute
    | some (x, n) => .ok ⟨1, n, [replicate n x]⟩

/-- A constant operator known at the parameters 1 and 2. -/
def iExConst : Interp ℚ := ⟨.const, some (.one [1, 2]), some 1, some [⟨1, 1, [[1]]⟩, ⟨1, 1, [[5]]⟩],
  some .cubic, some (.cubic, .one [1, 2], [⟨1, 1, [[1]]⟩, ⟨1, 1, [[5]]⟩])⟩

def iExModel : Except Err (IModel ℚ (Option (ℚ × Nat))) :=
  IModel.construct toyLib [.itp iExConst, .itp ⟨.lin, none, none, none, none, none⟩] none none

/-- **C19 (concrete witness).** Two training parameters; the data are exactly `dq/dt = 2 q + c(mu)` with the
known operator `c(1) = 1`, `c(2) = 5`. The solver solves the least-squares problem it is given exactly, but
the fitted model has `rhs(1, 1) = 2` instead of 3 and `rhs(2, 1) = 2` instead of 7; with an unknown linear
operator alone, the data `dq/dt = 2 q` are fitted exactly. -/
theorem C19_witness :
    (iExModel.bind fun M =>
      match M.fit toyLib none (fun _ => none) oneSolver [.scalar 1, .scalar 2] [.mat 1 [[1]], .mat 1 [[1]]]
        [.mat 1 [[3]], .mat 1 [[7]]] none with
      | (M', .ok ()) => (M'.base.rhs toyLib (.scalar 1) [1] none).2.bind fun v =>
          (M'.base.rhs toyLib (.scalar 2) [1] none).2.bind fun v' => .ok (v, v')
      | (_, .error e) => .error e) = .ok ([2], [2]) ∧
    ((IModel.construct toyLib [.itp ⟨.lin, none, none, none, none, none⟩] (none : Option (ℚ × Nat)) none).bind fun M =>
      match M.fit toyLib none (fun _ => none) oneSolver [.scalar 1, .scalar 2] [.mat 1 [[1]], .mat 1 [[1]]]
        [.mat 1 [[2]], .mat 1 [[2]]] none with
      | (M', .ok ()) => (M'.base.rhs toyLib (.scalar 1) [1] none).2.bind fun v =>
          (M'.base.rhs toyLib (.scalar 2) [1] none).2.bind fun v' => .ok (v, v')
      | (_, .error e) => .error e) = .ok ([2], [2]) := by decide +kernel

/-- The model of the witness, explicitly. -/
def iEx : IModel ℚ (Option (ℚ × Nat)) :=
  ⟨⟨[⟨.itp iExConst, false⟩, ⟨.itp ⟨.lin, none, some 1, none, none, none⟩, true⟩], false, some 1, some 0, false,
    some none, some 1, none⟩, none, []⟩

theorem oneSolver_shaped : oneSolver.Shaped 1 := by
  intro s D Z O _ _ hO
  simp only [oneSolver, Except.ok.injEq] at hO
  subst hO
  exact ⟨⟨rfl, by simp⟩, rfl, rfl⟩

/-- The hypotheses of `C19_twice` are satisfiable, with a known operator. -/
theorem iEx_args : IFitArgs toyLib iEx [.scalar 1, .scalar 2] [.mat 1 [[1]], .mat 1 [[1]]] [.mat 1 [[3]], .mat 1 [[7]]]
    none 1 0 where
  base := by
    refine ⟨by simp, by simp [iEx], ?_, ?_, by simp, by decide, ?_, by simp, by simp, ?_, ?_⟩
    · intro a ha
      simp only [mem_cons, not_mem_nil, or_false, or_self] at ha
      subst ha; simp [Arg.WF, atleast2d]
    · intro a ha
      simp only [mem_cons, not_mem_nil, or_false] at ha
      rcases ha with rfl | rfl <;> simp [Arg.WF, atleast2d]
    · intro a ha
      simp only [mem_cons, not_mem_nil, or_false, or_self] at ha
      subst ha; rfl
    · intro o ho
      simp only [PModel.ops, iEx, map_cons, map_nil, mem_cons, not_mem_nil, or_false] at ho
      rcases ho with rfl | rfl <;> simp [POp.kind, iExConst, OpKind.hasInputs]
    · intro s hs hi mu hmu
      simp only [iEx, mem_cons, not_mem_nil, or_false] at hs
      rcases hs with rfl | rfl
      · simp only [mem_cons, not_mem_nil, or_false] at hmu
        rcases hmu with rfl | rfl
        · exact ⟨⟨.const, some ⟨1, 1, [[1]]⟩⟩, by decide +kernel, rfl, _, rfl, ⟨rfl, by simp⟩, rfl, rfl⟩
        · exact ⟨⟨.const, some ⟨1, 1, [[5]]⟩⟩, by decide +kernel, rfl, _, rfl, ⟨rfl, by simp⟩, rfl, rfl⟩
      · simp at hi
  learns := rfl
  infer := ⟨_, mem_cons_of_mem _ mem_cons_self, rfl⟩
  itp := by
    intro s hs
    simp only [iEx, mem_cons, not_mem_nil, or_false] at hs
    rcases hs with rfl | rfl
    · refine ⟨_, rfl, fun _ => ⟨_, rfl, ?_⟩⟩
      intro A hA
      simp only [mem_cons, not_mem_nil, or_false] at hA
      rcases hA with rfl | rfl <;> exact ⟨⟨rfl, by simp⟩, rfl, rfl⟩
    · exact ⟨_, rfl, by simp⟩
  nodes := by
    intro s hs
    simp only [iEx, mem_cons, not_mem_nil, or_false] at hs
    rcases hs with rfl | rfl <;>
      exact ⟨by decide +kernel, fun c _ => toy_node c, fun _ => ⟨toy_node _, toy_node _⟩⟩
  inputs := rfl

example : iEx.base.known = [.itp iExConst] ∧
    (iEx.fit toyLib none (fun _ => none) oneSolver [.scalar 1, .scalar 2] [.mat 1 [[1]], .mat 1 [[1]]]
      [.mat 1 [[3]], .mat 1 [[7]]] none).2 = .ok () ∧
    (iEx.fit toyLib none (fun _ => none) oneSolver [.scalar 1, .scalar 2] [.mat 1 [[1]], .mat 1 [[1]]]
      [.mat 1 [[3]], .mat 1 [[7]]] none).1.subs.isSome := by
  refine ⟨rfl, by decide +kernel, by decide +kernel⟩

end Opinf
