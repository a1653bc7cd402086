import Verif.Props.InterpModelIO

/-!
# C83: interpolating trained models
-/

namespace Opinf

open List

variable {K S : Type}

/-- Two nonparametric models with the same operators and dimensions, and the same behaviour. -/
structure Model.Equals [Field K] (N M : Model K S) : Prop where
  ops : N.ops = M.ops
  r : N.r = M.r
  inputs : N.hasInputs = M.hasInputs
  m : M.hasInputs = true → N.m = M.m
  rhs : ∀ q u, N.rhs q u = M.rhs q u
  jacobian : ∀ q u, N.jacobian q u = M.jacobian q u
  predict : ∀ q0 k u, N.predict q0 k u = M.predict q0 k u

theorem Model.Equals.of [Field K] {N M : Model K S} (ops : N.ops = M.ops) (r : N.r = M.r)
    (inputs : N.hasInputs = M.hasInputs) (m : M.hasInputs = true → N.m = M.m) : N.Equals M := by
  have hrhs : ∀ q u, N.rhs q u = M.rhs q u := by
    intro q u; rw [Model.rhs, Model.rhs, ops]
  refine ⟨ops, r, inputs, m, hrhs, ?_, ?_⟩
  · intro q u
    rw [Model.jacobian, Model.jacobian, ops, r]
  · intro q0 k u
    have hct : N.checkTrained = M.checkTrained := by
      simp only [Model.checkTrained, r, inputs, ops]
      cases hi : M.hasInputs with
      | false => simp
      | true => rw [m hi]
    have hf : (fun q (j : Nat) => N.rhs q none) = fun q (j : Nat) => M.rhs q none := by
      funext q j; exact hrhs q none
    have hg : ∀ U : Nat × List (List K), (fun q j => N.rhs q (some (U.2.getD j [])))
        = fun q j => M.rhs q (some (U.2.getD j [])) := by
      intro U; funext q j; exact hrhs q _
    unfold Model.predict
    rw [hct, r, inputs, hf]
    cases hi : M.hasInputs with
    | false => rfl
    | true =>
      rw [m hi]
      cases u with
      | none => rfl
      | callable => rfl
      | arr a => simp only [hg]

section
variable [LinearOrder K]

/-- **C83, evaluation.** Let an interpolatory model be made from trained models of state dimension `r` and
input dimension `m` at distinct parameter values, with an interpolator class that interpolates. Then at
each of these parameter values it evaluates to a model with the operators, dimensions, right-hand side,
Jacobian and predictions of the model given for it. -/
theorem C83_from_models [Field K] (lib : ItpLib K) (plain : S) (ps : List (Par K))
    (models : List (Model K S)) (c : Option ItpClass) (N : IObj K S) (r m : Nat)
    (hM : ∀ M ∈ models, M.Trained r m)
    (h : IObj.fromModels lib plain ps models c = .ok N)
    (hnd : (ps.map Par.norm).Nodup) (hc : ∀ k ∈ c, Interpolates lib k)
    (hdef : c = none → Interpolates lib .cubic ∧ Interpolates lib .linearND) :
    ps.length = models.length ∧
    ∀ (i : Nat) mu M, ps[i]? = some mu → models[i]? = some M →
      ∃ E, (N.model.base.evaluate lib mu).2 = .ok E ∧ E.Equals M ∧
        ∀ q u, (N.model.base.rhs lib mu q u).2 = M.rhs q u := by
  cases models with
  | nil => rw [IObj.fromModels, IModel.fromModels] at h; cases h
  | cons M0 Ms =>
  obtain ⟨N1, hN1, rfl⟩ : ∃ N1, IModel.fromModels lib plain ps (M0 :: Ms) c = .ok N1 ∧ ⟨N1, c⟩ = N := by
    rw [IObj.fromModels] at h
    cases hf : IModel.fromModels lib plain ps (M0 :: Ms) c with
    | error e => rw [hf] at h; cases h
    | ok N1 => rw [hf] at h; exact ⟨N1, rfl, Except.ok.inj h⟩
  have hr := (hM M0 mem_cons_self).pos
  obtain ⟨P, p1, p2, p3, p4, rfl⟩ := fromModels_inv lib plain ps M0 Ms c N1 r m hr
    (hM M0 mem_cons_self).nonempty (fun M hM' => (hM M hM').cal) hN1
  obtain ⟨w1, w2, w3⟩ := ofPars_wf p1
  have hlen : ps.length = (M0 :: Ms).length := by rw [p2, w2]
  refine ⟨hlen, ?_⟩
  intro i mu M hmu hMi
  have htp := toPars_ofPars p1
  have hlA : ∀ ell, (entriesAt (M0 :: Ms) ell).length = P.length := fun ell => by
    rw [entriesAt, length_map]; exact p2
  have hMmem := mem_of_getElem? hMi
  have hkM := (p3 M hMmem).1
  -- the operators evaluate to those of the model
  have hev : ∀ ell < M0.ops.length, ∃ o, M.ops[ell]? = some o ∧
      (POp.itp (interpOf ((M0.ops.map Op.kind).getD ell .const) c P (entriesAt (M0 :: Ms) ell))).EvalsTo
        lib mu r m o := by
    intro ell hell
    obtain ⟨-, e2, e3⟩ := entriesAt_spec (fun N hN => (p3 N hN).1) (fun M hM' => (hM M hM').cal) ell
      (by rw [length_map]; exact hell)
    obtain ⟨A, a1, a2⟩ := e3 i M hMi
    refine ⟨_, a2, ?_, rfl, (hM M hMmem).cal _ (mem_of_getElem? a2)⟩
    have hint : Interpolates lib (itpData c P (entriesAt (M0 :: Ms) ell)).1 := by
      cases c with
      | some k => rw [itpData_some]; exact hc k rfl
      | none => cases P with
        | one xs => exact (hdef rfl).1
        | two p rows => exact (hdef rfl).2
    have hmem : (mu.norm, A) ∈ zip P.toPars (entriesAt (M0 :: Ms) ell) := by
      have : (zip P.toPars (entriesAt (M0 :: Ms) ell))[i]? = some (mu.norm, A) := by
        rw [getElem?_zip_eq_some]
        exact ⟨by rw [htp, getElem?_map, hmu]; rfl, a1⟩
      exact mem_of_getElem? this
    have := Interp.evaluate_node lib _ c P w1 r m hr _ (hlA ell) e2 (p4 ell hell) hint
      (by rw [htp]; exact hnd) mu.norm A hmem
    simp only [POp.evaluate]
    rw [Interp.evaluate_norm lib _ mu (by rw [w3 mu (mem_of_getElem? hmu)]; rfl)]
    exact this
  have hMlen : M.ops.length = M0.ops.length := by
    have := congrArg length hkM
    simpa using this
  have hall : Forall₂ (fun o op => POp.EvalsTo lib o mu r m op)
      (interpolated c P (M0.ops.map Op.kind) (M0 :: Ms) r m).base.ops M.ops := by
    simp only [interpolated, PModel.ops, interpsOf, map_map, length_map]
    rw [forall₂_map_left_iff]
    apply forall₂_of_getElem?
    · rw [length_range, hMlen]
    · intro k a b ha hb
      obtain ⟨hk, rfl⟩ := List.getElem?_eq_some_iff.mp ha
      rw [length_range] at hk
      obtain ⟨o, o1, o2⟩ := hev k hk
      rw [o1, Option.some.injEq] at hb
      subst hb
      rw [getElem_range]
      exact o2
  have hex : ∀ s ∈ (interpolated c P (M0.ops.map Op.kind) (M0 :: Ms) r m).base.slots,
      ∃ op, s.op.EvalsTo lib mu r m op := by
    intro s hs
    rw [PModel.ops, forall₂_map_left_iff] at hall
    obtain ⟨k, hk, rfl⟩ := mem_iff_getElem.mp hs
    exact ⟨_, (forall₂_iff_get.mp hall).2 k hk (hall.length_eq ▸ hk)⟩
  obtain ⟨slots', ops, h1, h2, -⟩ := evalOps_ok lib mu r m _ hex
  have heq : ops = M.ops := by
    rw [PModel.ops, forall₂_map_left_iff] at hall
    rw [forall₂_iff_get] at hall h2
    apply ext_getElem (by rw [← hall.1, ← h2.1])
    intro k k1 k2
    have a1 := (hall.2 k (by rw [hall.1]; exact k2) k2).1
    have a2 := (h2.2 k (by rw [h2.1]; exact k1) k1).1
    exact Except.ok.inj (a2.symm.trans a1)
  subst heq
  obtain ⟨E, f1, f2, f3, -, f5, f6⟩ := frozen_dims (S := S) M.ops r m hr (hM M hMmem).nonempty
    (hM M hMmem).cal
  have hE : ((interpolated c P (M0.ops.map Op.kind) (M0 :: Ms) r m).base.evaluate lib mu).2 = .ok E := by
    rw [PModel.evaluate, h1]
    exact f1
  have hEq : E.Equals M := by
    apply Model.Equals.of f2
    · rw [f3, (hM M hMmem).dim]
    · rw [f5, (hM M hMmem).inv.inputs]
    · intro hi
      rw [f6, (hM M hMmem).inputs, if_pos]
      rw [← (hM M hMmem).inv.inputs]
      exact hi
  refine ⟨E, hE, hEq, ?_⟩
  intro q u
  simp only [PModel.rhs, hE]
  exact hEq.rhs q u

/-- **C83, the model made from models.** With an explicit interpolator class, or with parameter values that
are vectors or scalars in increasing order, the model made from trained models can be copied, saved and
loaded (`C83_copy`, `C83_load`). -/
theorem C83_from_models_ready [Field K] (lib : ItpLib K) (plain : S) (ps : List (Par K))
    (models : List (Model K S)) (c : Option ItpClass) (N : IObj K S) (r m : Nat)
    (hM : ∀ M ∈ models, M.Trained r m)
    (h : IObj.fromModels lib plain ps models c = .ok N)
    (hord : c ≠ none ∨ ∀ P, PArr.ofPars ps = .ok P → P.Ordered) : N.Ready lib r m ∧ N.cls = c := by
  cases models with
  | nil => rw [IObj.fromModels, IModel.fromModels] at h; cases h
  | cons M0 Ms =>
  obtain ⟨N1, hN1, rfl⟩ : ∃ N1, IModel.fromModels lib plain ps (M0 :: Ms) c = .ok N1 ∧ ⟨N1, c⟩ = N := by
    rw [IObj.fromModels] at h
    cases hf : IModel.fromModels lib plain ps (M0 :: Ms) c with
    | error e => rw [hf] at h; cases h
    | ok N1 => rw [hf] at h; exact ⟨N1, rfl, Except.ok.inj h⟩
  have hr := (hM M0 mem_cons_self).pos
  have hne := (hM M0 mem_cons_self).nonempty
  obtain ⟨P, p1, p2, p3, p4, rfl⟩ := fromModels_inv lib plain ps M0 Ms c N1 r m hr
    hne (fun M hM' => (hM M hM').cal) hN1
  have w1 := (ofPars_wf p1).1
  refine ⟨⟨hr, ?_, ?_, rfl, ?_, rfl⟩, rfl⟩
  · simp only [interpolated, interpsOf, length_map]
    intro h0
    rw [map_eq_nil_iff, map_eq_nil_iff, range_eq_nil, length_eq_zero_iff] at h0
    exact hne h0
  · intro s hs
    simp only [interpolated, interpsOf, length_map] at hs
    obtain ⟨t, ht, rfl⟩ := mem_map.mp hs
    obtain ⟨ell, hell, rfl⟩ := mem_map.mp ht
    have hell' := mem_range.mp hell
    obtain ⟨-, e2, -⟩ := entriesAt_spec (fun N hN => (p3 N hN).1) (fun M hM' => (hM M hM').cal) ell
      (by rw [length_map]; exact hell')
    refine ⟨_, P, _, _, rfl, interpOf_settled lib _ c P w1 r m _ (by rw [entriesAt, length_map]; exact p2) e2
      (fun hcn => (hord.resolve_left (by simp [hcn])) P p1) (p4 ell hell'), rfl, ?_⟩
    intro c' hc'
    rw [show c = some c' from hc', itpData_some]
  · simp only [interpolated, PModel.ops, map_map, any_map]
    rfl

/-- **C83, success.** Trained models with the same operator classes at distinct scalar parameter values, at
least two of them and in any order, can be interpolated with the default class. -/
theorem C83_from_models_succeeds [Field K] (lib : ItpLib K) (hlib : lib.Contract) (plain : S) (xs : List K)
    (models : List (Model K S)) (r m : Nat) (hM : ∀ M ∈ models, M.Trained r m)
    (hk : ∀ M ∈ models, ∀ M' ∈ models, M.ops.map Op.kind = M'.ops.map Op.kind)
    (hl : models.length = xs.length) (h2 : 2 ≤ xs.length) (hnd : xs.Nodup) :
    ∃ N, IObj.fromModels lib plain (xs.map .scalar) models none = .ok N := by
  cases models with
  | nil => simp at hl; omega
  | cons M0 Ms =>
  have hP : (PArr.one xs).WF := ⟨by simp only [PArr.length]; omega, trivial⟩
  have hM0 := hM M0 mem_cons_self
  have htr : ∀ M ∈ M0 :: Ms, M.checkTrained = .ok () := by
    intro M hm
    have hT := hM M hm
    rw [Model.checkTrained, hT.dim, hT.inputs, if_neg (by simp), if_neg (by simp), if_neg]
    rw [Bool.not_eq_true, any_eq_false]
    intro o ho
    obtain ⟨E, hE, -⟩ := hT.cal o ho
    simp [hE]
  refine ⟨_, by
    rw [IObj.fromModels, fromModels_eq lib plain (xs.map .scalar) M0 Ms none r m hM0.pos hM0.nonempty
      (fun N hN => hk N (mem_cons_of_mem _ hN) M0 mem_cons_self) htr (fun M hm => (hM M hm).cal) (.one xs)
      (ofPars_toPars (.one xs) hP) hl]
    · rfl
    · intro ell hell
      have hlA : (entriesAt (M0 :: Ms) ell).length = xs.length := by rw [entriesAt, length_map]; exact hl
      have hperm := (sortPairs_perm xs (entriesAt (M0 :: Ms) ell)).map Prod.fst
      rw [map_fst_zip (by omega)] at hperm
      have hlt : ((sortPairs xs (entriesAt (M0 :: Ms) ell)).map Prod.fst).Pairwise (· < ·) := by
        have h1 := sortPairs_sorted xs (entriesAt (M0 :: Ms) ell)
        have h3 : ((sortPairs xs (entriesAt (M0 :: Ms) ell)).map Prod.fst).Pairwise (· ≠ ·) :=
          hperm.nodup_iff.mpr hnd
        exact (h1.and h3).imp fun h => lt_of_le_of_ne h.1 h.2
      exact hlib.cubic_ok _ _ (by rw [hperm.length_eq]; exact h2) hlt (by simp [itpData])⟩

/-- **C83 (false of the code), unsorted parameters.** A model made with the default class from trained
models at scalar parameter values that are not in increasing order (`C83_from_models_succeeds`) can neither
be copied nor loaded after saving: both raise `ValueError`. -/
theorem C83_unsorted [Field K] (lib : ItpLib K) (hlib : lib.Contract) (plain : S) (ps : List (Par K))
    (models : List (Model K S)) (N : IObj K S) (r m : Nat) (hM : ∀ M ∈ models, M.Trained r m)
    (h : IObj.fromModels lib plain ps models none = .ok N)
    (xs : List K) (hxs : PArr.ofPars ps = .ok (.one xs)) (hun : ¬ xs.Pairwise (· ≤ ·)) :
    N.copy lib plain = .error .value ∧ IObj.load lib plain N.save none = .error .value := by
  cases models with
  | nil => rw [IObj.fromModels, IModel.fromModels] at h; cases h
  | cons M0 Ms =>
  obtain ⟨N1, hN1, rfl⟩ : ∃ N1, IModel.fromModels lib plain ps (M0 :: Ms) none = .ok N1 ∧ ⟨N1, none⟩ = N := by
    rw [IObj.fromModels] at h
    cases hf : IModel.fromModels lib plain ps (M0 :: Ms) none with
    | error e => rw [hf] at h; cases h
    | ok N1 => rw [hf] at h; exact ⟨N1, rfl, Except.ok.inj h⟩
  have hr := (hM M0 mem_cons_self).pos
  have hne := (hM M0 mem_cons_self).nonempty
  obtain ⟨P, p1, p2, p3, p4, rfl⟩ := fromModels_inv lib plain ps M0 Ms none N1 r m hr
    hne (fun M hM' => (hM M hM').cal) hN1
  rw [hxs, Except.ok.injEq] at p1
  subst p1
  have hw := (ofPars_wf hxs).1
  have hbad : ∀ t ∈ interpsOf none (.one xs) (M0.ops.map Op.kind) (M0 :: Ms),
      t.copy lib = .error .value ∧ Interp.load lib t.save.kind t.save none = .error .value := by
    intro t ht
    simp only [interpsOf, length_map] at ht
    obtain ⟨ell, hell, rfl⟩ := mem_map.mp ht
    have hell' := mem_range.mp hell
    obtain ⟨-, e2, -⟩ := entriesAt_spec (fun N hN => (p3 N hN).1) (fun M hM' => (hM M hM').cal) ell
      (by rw [length_map]; exact hell')
    have hmake := Interp.make_eq lib ((M0.ops.map Op.kind).getD ell .const) (.one xs) hw none r m hr _
      (by rw [entriesAt, length_map]; exact p2) e2 ps hxs
    rw [p4 ell hell'] at hmake
    obtain ⟨g1, g2, -⟩ := C11_unsorted_fails lib hlib _ ps r m hr _ e2 _ hmake xs rfl hun
    exact ⟨g1, g2⟩
  have hops : (⟨interpolated none (.one xs) (M0.ops.map Op.kind) (M0 :: Ms) r m, none⟩ : IObj K S).model.base.ops
      = (interpsOf none (.one xs) (M0.ops.map Op.kind) (M0 :: Ms)).map POp.itp := by
    simp only [interpolated, PModel.ops, map_map]
    rfl
  have hnil : interpsOf none (.one xs) (M0.ops.map Op.kind) (M0 :: Ms) ≠ [] := by
    simp only [interpsOf, length_map]
    intro h0
    rw [map_eq_nil_iff, range_eq_nil, length_eq_zero_iff] at h0
    exact hne h0
  obtain ⟨t0, ht0⟩ := exists_mem_of_ne_nil _ hnil
  constructor
  · rw [IObj.copy, hops, mapM_error_of _ .value]
    · intro o ho
      obtain ⟨t, ht, rfl⟩ := mem_map.mp ho
      exact Or.inr (by rw [POp.copy, (hbad t ht).1]; rfl)
    · exact ⟨.itp t0, mem_map.mpr ⟨t0, ht0, rfl⟩, by rw [POp.copy, (hbad t0 ht0).1]; rfl⟩
  · rw [IObj.load]
    simp only [IObj.save, loadClass]
    rw [show (⟨interpolated none (.one xs) (M0.ops.map Op.kind) (M0 :: Ms) r m, none⟩ : IObj K S).model.base.ops.filterMap
      (fun o => o.interp?.map Interp.save) = _ from save_ops hops, mapM_error_of _ .value]
    · intro f hf
      obtain ⟨t, ht, rfl⟩ := mem_map.mp hf
      exact Or.inr (hbad t ht).2
    · exact ⟨t0.save, mem_map.mpr ⟨t0, ht0, rfl⟩, (hbad t0 ht0).2⟩

/-- **C83, refusals.** No models raise `IndexError`. If all models before the first unsuitable one have the
operator classes of the first model and are trained, the unsuitable one raises `ValueError` if its operator
classes differ and otherwise, being untrained, `AttributeError`. -/
theorem C83_refused [Field K] (lib : ItpLib K) (plain : S) (ps : List (Par K)) (c : Option ItpClass) :
    IObj.fromModels lib plain ps ([] : List (Model K S)) c = .error .index ∧
    ∀ (M0 : Model K S) (pre : List (Model K S)) (M : Model K S) (post : List (Model K S)),
      (∀ N ∈ pre, N.ops.map Op.kind = M0.ops.map Op.kind ∧ N.checkTrained = .ok ()) →
      (pre ++ M :: post).head? = some M0 →
      (M.ops.map Op.kind ≠ M0.ops.map Op.kind →
        IObj.fromModels lib plain ps (pre ++ M :: post) c = .error .value) ∧
      (M.ops.map Op.kind = M0.ops.map Op.kind → M.checkTrained = .error .attribute →
        IObj.fromModels lib plain ps (pre ++ M :: post) c = .error .attribute) := by
  refine ⟨rfl, ?_⟩
  intro M0 pre M post hpre hhead
  have key : ∀ e, checkAligned (M0.ops.map Op.kind) M = .error e →
      IObj.fromModels lib plain ps (pre ++ M :: post) c = .error e := by
    intro e he
    have hm : (pre ++ M :: post).mapM (checkAligned (M0.ops.map Op.kind)) = .error e := by
      clear hhead
      induction pre with
      | nil => rw [nil_append, mapM_cons, he]; rfl
      | cons N pre ih =>
        obtain ⟨h1, h2⟩ := hpre N mem_cons_self
        rw [cons_append, mapM_cons, checkAligned, if_neg (not_not.mpr h1), h2]
        change (mapM (checkAligned (M0.ops.map Op.kind)) (pre ++ M :: post)).bind _ = _
        rw [ih fun N' hN' => hpre N' (mem_cons_of_mem _ hN')]
        rfl
    generalize pre ++ M :: post = l at hm hhead
    cases l with
    | nil => simp at hhead
    | cons N l =>
      rw [head?_cons, Option.some.injEq] at hhead
      subst hhead
      rw [IObj.fromModels, IModel.fromModels, hm]
      rfl
  constructor
  · intro hk
    exact key _ (by rw [checkAligned, if_pos hk])
  · intro hk ht
    exact key _ (by rw [checkAligned, if_neg (not_not.mpr hk), ht])

/-- **C83, changing the interpolator.** If all interpolators of the new class can be built,
`set_interpolator()` succeeds and gives a model that can be copied, saved and loaded, with the same
parameter values and entries, whatever class was used before. -/
theorem C83_set_interpolator [Field K] (lib : ItpLib K) (M : IObj K S) (r m : Nat) (h : M.Ready lib r m)
    (c : ItpClass)
    (hb : ∀ s ∈ M.model.base.slots, ∀ t P As, s.op = .itp t → t.params = some P → t.entries = some As →
      lib.build c P As = .ok ()) :
    ∃ N, M.setInterpolator lib (some c) = (N, .ok ()) ∧ N.Ready lib r m ∧ N.cls = some c ∧
      (∀ c', N.Uses c' → c' = c) ∧
      Forall₂ (fun s s' => ∃ t t', s.op = .itp t ∧ s'.op = .itp t' ∧ t'.kind = t.kind ∧
        t'.params = t.params ∧ t'.entries = t.entries ∧ t'.cls = some c ∧ s'.infer = s.infer)
        M.model.base.slots N.model.base.slots := by
  obtain ⟨slots', h1, h2⟩ : ∃ slots', setAllClasses lib (some c) M.model.base.slots = (slots', .ok ()) ∧
      Forall₂ (fun s s' => ∃ t t' P As, s.op = .itp t ∧ s'.op = .itp t' ∧ t'.kind = t.kind ∧
        t'.params = t.params ∧ t'.entries = t.entries ∧ t'.cls = some c ∧ s'.infer = s.infer ∧
        t'.Settled lib P As r m c ∧ M.model.base.p = some P.dim) M.model.base.slots slots' := by
    have hall := h.ops
    generalize M.model.base.slots = slots at hall hb
    induction slots with
    | nil => exact ⟨[], rfl, .nil⟩
    | cons s ss ih =>
      obtain ⟨ss', i1, i2⟩ := ih (fun s' hs' => hall s' (mem_cons_of_mem _ hs'))
        (fun s' hs' => hb s' (mem_cons_of_mem _ hs'))
      obtain ⟨t, P, As, c0, ht, hS, hp, -⟩ := hall s mem_cons_self
      have hbt := hb s mem_cons_self t P As ht hS.params hS.entries
      obtain ⟨o, b⟩ := s
      simp only at ht
      subst ht
      have hset : t.setInterpolator lib (some c) = ({ t with cls := some c, itp := some (c, P, As) }, .ok ()) := by
        simp only [Interp.setInterpolator, hS.entries, hS.params, itpData_some, hbt]
      refine ⟨⟨.itp { t with cls := some c, itp := some (c, P, As) }, b⟩ :: ss', ?_, .cons ?_ i2⟩
      · simp only [setAllClasses, hset, i1]
      · refine ⟨t, { t with cls := some c, itp := some (c, P, As) }, P, As, rfl, rfl, rfl, rfl, rfl, rfl, rfl, ?_, hp⟩
        obtain ⟨g1, g2, g3, g4, g5, g6, g7, g8, g9⟩ := hS
        exact ⟨g1, g2, g3, g4, g5, g6, rfl, rfl, hbt⟩
  refine ⟨⟨{ M.model with base := { M.model.base with slots := slots' } }, some c⟩, ?_, ?_, rfl, ?_, ?_⟩
  · simp only [IObj.setInterpolator, h1]
  · refine ⟨h.pos, ?_, ?_, h.dim, ?_, h.inputDim⟩
    · intro h0
      have := h2.length_eq
      simp only at h0
      rw [h0, length_nil, length_eq_zero_iff] at this
      exact h.nonempty this
    · intro s' hs'
      obtain ⟨s, hs, t, t', P, As, -, k2, -, -, -, -, -, k8, k9⟩ := forall₂_mem_right h2 hs'
      exact ⟨t', P, As, c, k2, k8, k9, fun c' hc' => by cases hc'; rfl⟩
    · rw [h.inputs]
      simp only [PModel.ops, any_map]
      clear hb h1
      generalize M.model.base.slots = slots at h2
      induction h2 with
      | nil => rfl
      | cons hab _ ih =>
        obtain ⟨t, t', P, As, k1, k2, k3, -⟩ := hab
        rw [any_cons, any_cons, ih]
        simp only [Function.comp_apply, k1, k2, POp.kind, k3]
  · rintro c' ⟨s', hs', t0, k0, k0'⟩
    obtain ⟨s, hs, t, t', P, As, -, k2, -, -, -, k6, -⟩ := forall₂_mem_right h2 hs'
    rw [k0] at k2
    cases k2
    rw [k0'] at k6
    exact Option.some.inj k6
  · exact h2.imp fun s s' ⟨t, t', P, As, k1, k2, k3, k4, k5, k6, k7, _⟩ => ⟨t, t', k1, k2, k3, k4, k5, k6, k7⟩

end

/-! ### Examples -/

/-- A trained model `x' = a x + b` of state dimension 1. -/
def lineModel (a b : ℚ) : Model ℚ Unit :=
  ⟨[⟨⟨.lin, some ⟨1, 1, [[a]]⟩⟩, true⟩, ⟨⟨.const, some ⟨1, 1, [[b]]⟩⟩, false⟩], false, some 1, some 0, false,
    some ()⟩

theorem lineModel_trained (a b : ℚ) : (lineModel a b).Trained 1 0 := by
  refine ⟨⟨?_, rfl, ?_, fun _ => rfl, fun _ => ⟨_, mem_cons_self, rfl⟩⟩, by decide, by simp [lineModel, Model.ops], rfl,
    rfl, ?_⟩
  · intro s hs
    simp only [lineModel, mem_cons, not_mem_nil, or_false] at hs
    rcases hs with rfl | rfl <;> intro E hE <;> cases hE <;> exact ⟨Nat.one_pos, 0, ⟨rfl, by simp⟩, rfl, rfl⟩
  · intro s hs _
    simp only [lineModel, mem_cons, not_mem_nil, or_false] at hs
    rcases hs with rfl | rfl <;> rfl
  · intro o ho
    simp only [lineModel, Model.ops, map_cons, map_nil, mem_cons, not_mem_nil, or_false] at ho
    rcases ho with rfl | rfl <;> exact ⟨_, rfl, ⟨rfl, by simp⟩, rfl, rfl⟩

/-- The interpolatory model through three trained models; the parameter values are in order or not. -/
def lineObj (ps : List ℚ) : Except Err (IObj ℚ Unit) :=
  IObj.fromModels toyLib () (ps.map .scalar) [lineModel 1 5, lineModel 2 6, lineModel 3 7] none

-- the hypotheses of the theorems are met: the construction succeeds in both orders
example : (lineObj [1, 2, 3]).isOk = true ∧ (lineObj [3, 1, 2]).isOk = true := by decide +kernel
example : (([1, 2, 3] : List ℚ).map fun x => (Par.scalar x).norm).Nodup ∧
    (∀ P, PArr.ofPars (([1, 2, 3] : List ℚ).map .scalar) = .ok P → P.Ordered) := by
  refine ⟨by decide +kernel, ?_⟩
  intro P hP
  have : P = .one [1, 2, 3] := by
    have h : PArr.ofPars (([1, 2, 3] : List ℚ).map .scalar) = .ok (.one [1, 2, 3]) := by decide +kernel
    rw [h] at hP
    exact (Except.ok.inj hP).symm
  subst this
  simp only [PArr.Ordered]
  decide +kernel
example : PArr.ofPars (([3, 1, 2] : List ℚ).map .scalar) = .ok (.one [3, 1, 2]) ∧
    ¬ ([3, 1, 2] : List ℚ).Pairwise (· ≤ ·) := by decide +kernel

-- at a parameter value the model behaves like the model given for it, sorted or not
example : ((lineObj [1, 2, 3]).bind fun N => (N.model.base.rhs toyLib (.scalar 2) [10] none).2) = .ok [26] := by
  decide +kernel
example : ((lineObj [3, 1, 2]).bind fun N => (N.model.base.rhs toyLib (.scalar 1) [10] none).2) = .ok [26] := by
  decide +kernel

-- copies and files work with sorted parameters and fail with unsorted ones
example : (((lineObj [1, 2, 3]).bind fun N => N.copy toyLib ()).bind fun N =>
    (N.model.base.rhs toyLib (.scalar 2) [10] none).2) = .ok [26] := by decide +kernel
example : (((lineObj [1, 2, 3]).bind fun N => IObj.load toyLib () N.save none).bind fun N =>
    (N.model.base.rhs toyLib (.scalar 3) [10] none).2) = .ok [37] := by decide +kernel
example : ((lineObj [3, 1, 2]).bind fun N => N.copy toyLib ()).toOption.isNone = true ∧
    ((lineObj [3, 1, 2]).bind fun N => IObj.load toyLib () N.save none).toOption.isNone = true := by
  decide +kernel

-- refused models
example : ((IObj.fromModels toyLib () [.scalar 1, .scalar 2]
      [lineModel 1 5, { lineModel 1 5 with slots := (lineModel 1 5).slots.reverse }] none).bind
        fun _ => .ok ()) = .error .value ∧
    ((IObj.fromModels toyLib () [.scalar 1, .scalar 2]
      [lineModel 1 5, { lineModel 1 5 with
        slots := (lineModel 1 5).slots.map fun s => ⟨⟨s.op.kind, none⟩, s.infer⟩ }] none).bind
        fun _ => .ok ()) = .error .attribute := by decide +kernel

-- a class outside scipy has to be given again when loading
example : ((IObj.fromModels toyLib () [.scalar 1, .scalar 2] [lineModel 1 5, lineModel 2 6]
      (some (.other 7 false))).bind fun N => .ok N.saveWarns) = .ok true ∧
    (((IObj.fromModels toyLib () [.scalar 1, .scalar 2] [lineModel 1 5, lineModel 2 6]
      (some (.other 7 false))).bind fun N => IObj.load toyLib () N.save none).bind fun _ => .ok ())
      = .error .value ∧
    (((IObj.fromModels toyLib () [.scalar 1, .scalar 2] [lineModel 1 5, lineModel 2 6]
      (some (.other 7 false))).bind fun N => IObj.load toyLib () N.save (some (.other 7 false))).bind
        fun N => (N.model.base.rhs toyLib (.scalar 2) [10] none).2) = .ok [26] := by decide +kernel

-- changing the class of the model with unsorted parameters makes copies possible
example : (((lineObj [3, 1, 2]).bind fun N => (N.setInterpolator toyLib (some .linearND)).1.copy toyLib ()).bind
    fun N => (N.model.base.rhs toyLib (.scalar 1) [10] none).2) = .ok [26] := by decide +kernel

end Opinf
