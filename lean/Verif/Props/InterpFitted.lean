import Verif.Props.InterpModelIO

/-!
# C83: interpolatory models that were trained

A successful `fit` leaves an interpolatory model in the state (`IObj.Ready`) that the theorems on copies, files
and changes of the interpolator ask for.
-/

namespace Opinf

open List

variable {K S : Type}

theorem process_p [CommRing K] (lib : ItpLib K) (M M1 : PModel K S) (ps : List (Par K))
    (states lhs : List (Arg K)) (inputs : Option (List (Arg K))) (data : List (PSet K))
    (Z : List (List (List K)))
    (h : M.processFitArgs lib ps states lhs inputs = (M1, .ok (data, Z))) :
    ∃ d, paramsDim ps = .ok d ∧ M1.p = some d := by
  unfold PModel.processFitArgs at h
  split at h
  · simp at h
  rename_i Ma hclear
  split at h
  · simp at h
  rename_i d hd
  split at h
  · simp at h
  rename_i Mb hsync
  split at h
  · simp at h
  rename_i Mc hlearn
  split at h
  · simp at h
  rename_i hcheck
  split at h
  · simp at h
  rename_i Md U hin
  split at h
  · simp at h
  simp only [Prod.mk.injEq, Except.ok.injEq] at h
  obtain ⟨rfl, rfl, rfl⟩ := h
  obtain ⟨b1, -⟩ := sync_ok _ _ _ hsync
  have c1 := plearnState_ok _ _ _ hlearn
  obtain ⟨e1, -, -⟩ := processInputs_ok _ _ _ _ _ _ hin
  exact ⟨d, hd, by rw [e1, c1, b1]⟩

/-- The parameter dimension after a successful `fit` of an interpolatory model. -/
theorem ifit_p [Field K] [LinearOrder K] (lib : ItpLib K) (plain : S) (l2 : Int → S)
    (I : SolverI K S) (M M' : IModel K S) (hint : M.base.intrusive = false) (ps : List (Par K))
    (states lhs : List (Arg K)) (inputs : Option (List (Arg K)))
    (hfit : M.fit lib plain l2 I ps states lhs inputs = (M', .ok ())) :
    ∃ d, paramsDim ps = .ok d ∧ M'.base.p = some d := by
  rw [IModel.fit, if_neg (by simp [hint]), IModel.fitSolver] at hfit
  rcases hp : M.base.processFitArgs lib ps states lhs inputs with ⟨B, x⟩
  rw [hp] at hfit
  cases x with
  | error e => simp at hfit
  | ok t =>
  obtain ⟨data, Z⟩ := t
  obtain ⟨d, f1, f2⟩ := process_p lib M.base B ps states lhs inputs data Z hp
  refine ⟨d, f1, ?_⟩
  simp only at hfit
  cases hsol : B.solver with
  | none => rw [hsol] at hfit; simp at hfit
  | some s =>
  rw [hsol] at hfit
  simp only at hfit
  cases hsubs : fitSubs plain l2 I B s 0 data Z with
  | error e => rw [hsubs] at hfit; simp at hfit
  | ok Ns =>
  rw [hsubs] at hfit
  simp only [IModel.refit] at hfit
  rcases hrs : refitSubs I Ns with ⟨Ns', x⟩
  rw [hrs] at hfit
  cases x with
  | error e => simp at hfit
  | ok u =>
  simp only [Prod.mk.injEq] at hfit
  rw [← hfit.1]
  exact f2

/-- **C83, trained models.** A successful `fit` of an interpolatory model leaves it complete, with an
interpolator made from the training parameters for every operator, so that it can be copied, saved and loaded
(`C83_copy`, `C83_load`) and its interpolator can be changed (`C83_set_interpolator`): if the interpolator classes
are given, or the parameter values are vectors or scalars in increasing order. -/
theorem C83_fit_ready [Field K] [LinearOrder K] (lib : ItpLib K) (plain : S) (l2 : Int → S) (I : SolverI K S)
    (M : IObj K S) (M' : IModel K S) (ps : List (Par K)) (states lhs : List (Arg K))
    (inputs : Option (List (Arg K))) (r m : Nat) (hA : IFitArgs lib M.model ps states lhs inputs r m)
    (hI : I.Shaped r) (hfit : M.model.fit lib plain l2 I ps states lhs inputs = (M', .ok ()))
    (hcls : ∀ s ∈ M.model.base.slots, ∀ t, s.op = .itp t → ∀ c ∈ M.cls, t.cls = some c)
    (hord : (∀ s ∈ M.model.base.slots, ∀ t, s.op = .itp t → t.cls ≠ none) ∨
      ∀ P, PArr.ofPars ps = .ok P → P.Ordered) :
    (⟨M', M.cls⟩ : IObj K S).Ready lib r m := by
  obtain ⟨⟨Ns, n1, n2, n3, n4, n5, n6⟩, hdec⟩ :=
    ifit_decoupled lib plain l2 I M.model M' ps states lhs inputs r m hA hI hfit
  obtain ⟨d0, Ns', i1, i2, -, -⟩ := ifit_inv lib plain l2 I M.model M' hA.learns ps states lhs inputs hfit
  obtain ⟨d, p1, p2⟩ := ifit_p lib plain l2 I M.model M' hA.learns ps states lhs inputs hfit
  rw [n1, Option.some.injEq] at i2
  subst i2
  obtain ⟨q1, q2⟩ := reinterpolateAll_ok lib ps Ns 0 _ _ i1
  rw [length_map] at q1
  have hr := hA.base.r_pos
  -- one operator
  have hop : ∀ k (hk : k < M.model.base.slots.length) (hk' : k < M'.base.slots.length),
      ∃ t t' P As, M.model.base.slots[k].op = .itp t ∧ M'.base.slots[k].op = .itp t' ∧
        t'.Settled lib P As r m (itpData t.cls P As).1 ∧ PArr.ofPars ps = .ok P ∧ t'.kind = t.kind := by
    intro k hk hk'
    obtain ⟨t, ht, -⟩ := hA.itp _ (getElem_mem hk)
    obtain ⟨o, b1, b2⟩ := q2 k (prepSlot d0 M.model.base.slots[k]) (by
      rw [getElem?_map, getElem?_eq_getElem hk]; rfl)
    rw [getElem?_eq_getElem hk', Option.some.injEq] at b1
    obtain ⟨t1, ht1, hc1⟩ := prepSlot_itp d0 M.model.base.slots[k] t ht
    have hk1 : t1.kind = t.kind := by
      have := prepSlot_kind d0 M.model.base.slots[k]
      rw [ht1, ht] at this
      exact this
    rw [ht1, Nat.zero_add] at b2
    simp only [reinterpolate] at b2
    cases hsp : t1.clear.setParams ps with
    | error e => rw [hsp] at b2; simp at b2
    | ok t2 =>
    rw [hsp] at b2
    simp only at b2
    obtain ⟨-, P, hP, rfl⟩ := setParams_ok hsp
    obtain ⟨w1, w2, w3⟩ := ofPars_wf hP
    cases hse : subEntries k Ns with
    | error e => rw [hse] at b2; simp at b2
    | ok As =>
    rw [hse] at b2
    simp only [Prod.mk.injEq] at b2
    obtain ⟨s1, s2⟩ := subEntries_ok k Ns As hse
    have hlen : As.length = P.length := by rw [s1, n2, w2]
    have hfits : ∀ A ∈ As, t.kind.Fits A r m := by
      intro A hAm
      obtain ⟨i, hi, rfl⟩ := mem_iff_getElem.mp hAm
      have hi' : i < Ns.length := by rw [← s1]; exact hi
      obtain ⟨o', A', k1, k2, k3⟩ := s2 i _ (getElem?_eq_getElem hi')
      obtain ⟨h3, h4⟩ := n6 _ (getElem_mem hi')
      obtain ⟨E, hE, hF⟩ := h4 o' (mem_of_getElem? k1)
      rw [getElem?_eq_getElem hi, Option.some.injEq] at k3
      have hko : o'.kind = t.kind := by
        have := congrArg (fun l => l[k]?) h3
        simp only [getElem?_map, k1, getElem?_eq_getElem hk, ht, Option.map_some, Option.some.injEq] at this
        exact this
      rw [k3, ← hko]
      rw [k2, Option.some.injEq] at hE
      rw [hE]; exact hF
    obtain ⟨b2, b3⟩ := b2
    rw [Interp.setEntries_eq lib { t1.clear with params := some P, p := some P.dim } P rfl r m hr As hlen (by
      show ∀ A ∈ As, t1.kind.Fits A r m
      rw [hk1]; exact hfits)] at b2 b3
    have hcl : (t1.clear).cls = t.cls := hc1
    simp only [hcl] at b2 b3
    cases hb : lib.build (itpData t.cls P As).1 (itpData t.cls P As).2.1 (itpData t.cls P As).2.2 with
    | error e => rw [hb] at b3; simp at b3
    | ok u =>
      rw [hb] at b2
      refine ⟨t, interpOf t1.kind t.cls P As, P, As, ht, by rw [b1, ← b2]; rfl, ?_, hP, hk1⟩
      exact interpOf_settled lib t1.kind t.cls P w1 r m As hlen (by rw [hk1]; exact hfits)
        (fun hn => hord.elim (fun h => absurd hn (h _ (getElem_mem hk) t ht)) fun h => h P hP) hb
  refine ⟨hr, ?_, ?_, n3, ?_, ?_⟩
  · intro h0
    obtain ⟨s, hs, -⟩ := hA.infer
    have h0 : M'.base.slots = [] := h0
    rw [h0] at q1
    rw [length_eq_zero_iff.1 q1.symm] at hs
    exact not_mem_nil hs
  · intro s hs
    obtain ⟨k, hk', rfl⟩ := mem_iff_getElem.mp hs
    have hk' : k < M'.base.slots.length := hk'
    have hk : k < M.model.base.slots.length := by rw [← q1]; exact hk'
    obtain ⟨t, t', P, As, a1, a2, a3, a4, -⟩ := hop k hk hk'
    refine ⟨t', P, As, _, a2, a3, ?_, ?_⟩
    · show M'.base.p = some P.dim
      rw [p2]
      obtain ⟨w1, w2, w3⟩ := ofPars_wf a4
      cases hps : ps with
      | nil => exact absurd hps hA.base.ps_ne
      | cons mu ps' =>
        rw [hps] at p1
        simp only [paramsDim] at p1
        split at p1
        · cases p1
        · rw [← Except.ok.inj p1, w3 mu (by rw [hps]; exact mem_cons_self)]
    · intro c hc
      rw [hcls _ (getElem_mem hk) t a1 c hc, itpData_some]
  · show M'.base.hasInputs = M'.base.ops.any fun o => o.kind.hasInputs
    rw [n5, hA.inputs]
    have hmap : M'.base.ops.map POp.kind = M.model.base.ops.map POp.kind := by
      apply ext_getElem
      · simp [PModel.ops, q1]
      · intro k h1 h2
        simp only [PModel.ops, length_map] at h1 h2
        obtain ⟨t, t', P, As, a1, a2, a3, a4, a5⟩ := hop k h2 h1
        simp only [PModel.ops, getElem_map, a1, a2]
        exact a5
    have hany : ∀ l : List (POp K), (l.any fun o => o.kind.hasInputs) = (l.map POp.kind).any OpKind.hasInputs := by
      intro l; rw [any_map]; rfl
    rw [hany, hany, hmap]
  · show M'.base.m = some (if M'.base.hasInputs then m else 0)
    rw [n4, n5]
    cases hi : M.model.base.hasInputs with
    | true => rfl
    | false => rw [hA.base.no_inputs hi]; rfl

/-- A trained model can be copied, and saved and loaded with the class of its interpolators: the copy and the
loaded model evaluate to the same models. -/
theorem C83_trained_copies [Field K] [LinearOrder K] (lib : ItpLib K) (plain : S) (l2 : Int → S)
    (I : SolverI K S) (M : IObj K S) (M' : IModel K S) (ps : List (Par K)) (states lhs : List (Arg K))
    (inputs : Option (List (Arg K))) (r m : Nat) (hA : IFitArgs lib M.model ps states lhs inputs r m)
    (hI : I.Shaped r) (hfit : M.model.fit lib plain l2 I ps states lhs inputs = (M', .ok ())) (c : ItpClass)
    (hM : M.cls = some c) (hcls : ∀ s ∈ M.model.base.slots, ∀ t, s.op = .itp t → t.cls = some c) :
    (∃ N, (⟨M', M.cls⟩ : IObj K S).copy lib plain = .ok N ∧ N.model.base.SameAs lib M'.base ∧ N.cls = some c) ∧
    ∃ N, IObj.load lib plain (⟨M', M.cls⟩ : IObj K S).save (some c) = .ok N ∧ N.model.base.SameAs lib M'.base := by
  have hR := C83_fit_ready lib plain l2 I M M' ps states lhs inputs r m hA hI hfit
    (fun s hs t ht c' hc' => by
      rw [hM, Option.mem_def, Option.some.injEq] at hc'
      rw [hcls s hs t ht, hc'])
    (Or.inl fun s hs t ht h => by rw [hcls s hs t ht] at h; cases h)
  obtain ⟨N, h1, h2, h3, -⟩ := C83_copy lib plain _ r m hR
  refine ⟨⟨N, h1, h2, h3.trans hM⟩, ?_⟩
  have huse : ∀ c', (⟨M', M.cls⟩ : IObj K S).Uses c' → c' = c := by
    rintro c' ⟨s, hs, t, ht, hc⟩
    obtain ⟨t', P, As, c0, g1, g2, -, g4⟩ := hR.ops s hs
    rw [g1] at ht
    have := g2.cls
    rw [POp.itp.inj ht, hc, ← g4 c hM] at this
    exact Option.some.inj this
  obtain ⟨N, h1, h2, -⟩ := C83_load lib plain _ r m hR (some c) (Or.inl ⟨c, rfl, huse⟩)
  exact ⟨N, h1, h2⟩

/-- The hypotheses are satisfiable, with a known operator, and the model trained this way is complete. -/
example : ∃ M' : IModel ℚ (Option (ℚ × Nat)),
    iEx.fit toyLib none (fun _ => none) oneSolver [.scalar 1, .scalar 2] [.mat 1 [[1]], .mat 1 [[1]]]
      [.mat 1 [[3]], .mat 1 [[7]]] none = (M', .ok ()) ∧ (⟨M', none⟩ : IObj ℚ _).Ready toyLib 1 0 := by
  refine ⟨_, Prod.ext rfl (by decide +kernel), ?_⟩
  refine C83_fit_ready toyLib none (fun _ => none) oneSolver ⟨iEx, none⟩ _ _ _ _ none 1 0 iEx_args
    oneSolver_shaped (Prod.ext rfl (by decide +kernel)) (fun _ _ _ _ c hc => by cases hc) (Or.inr ?_)
  intro P hP
  rw [show PArr.ofPars [Par.scalar (1 : ℚ), .scalar 2] = .ok (.one [1, 2]) by decide +kernel] at hP
  rw [← Except.ok.inj hP]
  simp only [PArr.Ordered]
  decide +kernel

end Opinf
