import Verif.Lemmas.ParamConstruct
import Verif.Props.InterpModel

/-!
# Helper lemmas on copies and files of interpolatory models
-/

namespace Opinf

open List

variable {K S : Type}

theorem forall₂_of_getElem? {α β : Type} {R : α → β → Prop} {l : List α} {l' : List β}
    (hl : l.length = l'.length) (h : ∀ (i : Nat) a b, l[i]? = some a → l'[i]? = some b → R a b) :
    Forall₂ R l l' := by
  rw [forall₂_iff_get]
  exact ⟨hl, fun i h1 h2 => h i _ _ (getElem?_eq_getElem h1) (getElem?_eq_getElem h2)⟩

/-! ### Operators -/

/-- An interpolated operator with entries of the right shape. -/
theorem itp_full {t : Interp K} {P : PArr K} {As : List (Mat K)} {r m : Nat} (hr : 0 < r) (hP : P.WF)
    (he : t.entries = some As) (hp : t.p = some P.dim) (hl : As.length = P.length)
    (hf : ∀ A ∈ As, t.kind.Fits A r m) : (POp.itp t).Full r m (some P.dim) := by
  cases As with
  | nil =>
    have := hP.1
    rw [← hl] at this
    exact absurd this (by simp)
  | cons A As =>
    have hc : (⟨t.kind, some A⟩ : Op K).Cal r m := ⟨A, rfl, hf A mem_cons_self⟩
    refine ⟨by simp [POp.isCal, he], ?_, ?_, fun _ => hp⟩
    · simp [POp.stateDim, POp.first, he, (hf A mem_cons_self).2.1]
    · intro hi
      have := hc.inputDim hr hi
      simpa [POp.inputDim, POp.kind, POp.first, he] using this

section
variable [LinearOrder K]

theorem Interp.Settled.full {lib : ItpLib K} {t : Interp K} {P : PArr K} {As : List (Mat K)} {r m : Nat}
    {c : ItpClass} (h : t.Settled lib P As r m c) (hr : 0 < r) : (POp.itp t).Full r m (some P.dim) :=
  itp_full hr h.wf h.entries h.p h.len h.fits

theorem Interp.Settled.setInterpolator {lib : ItpLib K} {t : Interp K} {P : PArr K} {As : List (Mat K)}
    {r m : Nat} {c : ItpClass} (h : t.Settled lib P As r m c) :
    t.setInterpolator lib (some c) = (t, .ok ()) := by
  obtain ⟨k, pa, p, e, cl, i⟩ := t
  obtain ⟨h1, -, -, h4, -, -, h7, h8, h9⟩ := h
  simp only at h1 h4 h7 h8
  subst h1 h4 h7 h8
  simp only [Interp.setInterpolator, itpData_some, h9]

theorem Interp.Settled.copy_eq [Field K] {lib : ItpLib K} {t : Interp K} {P : PArr K} {As : List (Mat K)}
    {r m : Nat} {c : ItpClass} (h : t.Settled lib P As r m c) (hr : 0 < r) : t.copy lib = .ok t := by
  rw [Interp.copy, h.params, h.entries, h.cls]
  exact h.remake hr

theorem Interp.Settled.load_eq [Field K] {lib : ItpLib K} {t : Interp K} {P : PArr K} {As : List (Mat K)}
    {r m : Nat} {c : ItpClass} (h : t.Settled lib P As r m c) (hr : 0 < r) (given : Option ItpClass)
    (hg : given = some c ∨ given = none ∧ c.inScipy = true) :
    Interp.load lib t.save.kind t.save given = .ok t := by
  have hc : loadClass (some c) given = .ok (some c) := by
    rcases hg with rfl | ⟨rfl, hs⟩
    · rfl
    · simp [loadClass, hs]
  rw [Interp.load, if_neg (by simp)]
  simp only [Interp.save, h.cls, hc, h.params, h.entries]
  exact h.remake hr

/-! ### Construction -/

theorem setAllClasses_id (lib : ItpLib K) (c : Option ItpClass) (slots : List (PSlot K))
    (h : ∀ s ∈ slots, ∀ c', c = some c' → ∃ t, s.op = .itp t ∧ t.setInterpolator lib (some c') = (t, .ok ())) :
    setAllClasses lib c slots = (slots, .ok ()) := by
  induction slots with
  | nil => rfl
  | cons s ss ih =>
    cases c with
    | none => rfl
    | some c =>
      obtain ⟨t, ht, hs⟩ := h s mem_cons_self c rfl
      obtain ⟨o, b⟩ := s
      simp only at ht
      subst ht
      simp only [setAllClasses, hs, ih fun s' hs' => h s' (mem_cons_of_mem _ hs')]

/-- Constructing an interpolatory model from operators that are set and consistent. -/
theorem iconstruct_full (lib : ItpLib K) (ts : List (Interp K)) (solver : S) (c : Option ItpClass)
    (r m d : Nat) (hne : ts ≠ []) (h : ∀ t ∈ ts, (POp.itp t).Full r m (some d))
    (hc : ∀ t ∈ ts, ∀ c', c = some c' → t.setInterpolator lib (some c') = (t, .ok ())) :
    IModel.construct lib (ts.map POp.itp) solver c = .ok ⟨⟨ts.map fun t => ⟨.itp t, false⟩,
      ts.any fun t => t.kind.hasInputs, some r, some (if ts.any fun t => t.kind.hasInputs then m else 0),
      true, none, some d, none⟩, none, []⟩ := by
  have hany : ((ts.map POp.itp).any fun o => o.kind.hasInputs) = ts.any fun t => t.kind.hasInputs := by
    rw [any_map]; rfl
  rw [IModel.construct, if_neg (by simpa using hne), if_neg (by simp [POp.interp?]),
    pconstruct_full (ts.map POp.itp) solver r m (some d) (by simpa using hne)]
  · simp only
    rw [hany, setAllClasses_id]
    · simp only [map_map, Function.comp_def]
    · intro s hs c' hc'
      obtain ⟨o, ho, rfl⟩ := mem_map.mp hs
      obtain ⟨t, ht, rfl⟩ := mem_map.mp ho
      exact ⟨t, rfl, hc t ht c' hc'⟩
  · intro o ho
    obtain ⟨t, ht, rfl⟩ := mem_map.mp ho
    exact h t ht
  · intro d' _
    obtain ⟨t, ht⟩ := exists_mem_of_ne_nil ts hne
    exact ⟨.itp t, mem_map.mpr ⟨t, ht, rfl⟩, rfl⟩

/-! ### Evaluation depends on the operators only -/

omit [LinearOrder K] in
theorem evalOps_snd [Semiring K] (lib : ItpLib K) (mu : Par K) (a b : List (PSlot K))
    (h : a.map PSlot.op = b.map PSlot.op) : (evalOps lib mu a).2 = (evalOps lib mu b).2 := by
  induction a generalizing b with
  | nil =>
    cases b with
    | nil => rfl
    | cons t b => simp at h
  | cons s a ih =>
    cases b with
    | nil => simp at h
    | cons t b =>
      simp only [map_cons, cons.injEq] at h
      have := ih b h.2
      simp only [evalOps, h.1]
      rcases t.op.evaluate lib mu with ⟨o, x⟩
      cases x with
      | error e => rfl
      | ok op =>
        simp only
        rcases ha : evalOps lib mu a with ⟨a', x⟩
        rcases hb : evalOps lib mu b with ⟨b', y⟩
        rw [ha, hb] at this
        simp only at this
        subst this
        cases x <;> rfl

omit [LinearOrder K] in
theorem evaluate_snd [Semiring K] (lib : ItpLib K) (mu : Par K) (M N : PModel K S) (h : M.ops = N.ops) :
    (M.evaluate lib mu).2 = (N.evaluate lib mu).2 := by
  have := evalOps_snd lib mu M.slots N.slots h
  simp only [PModel.evaluate]
  rcases ha : evalOps lib mu M.slots with ⟨a', x⟩
  rcases hb : evalOps lib mu N.slots with ⟨b', y⟩
  rw [ha, hb] at this
  simp only at this
  subst this
  cases x <;> rfl

/-! ### Interpolating models -/

/-- The entries of the `ell`-th operators of a list of models. -/
def entriesAt (models : List (Model K S)) (ell : Nat) : List (Mat K) :=
  models.map fun N => (N.ops.getD ell ⟨.const, none⟩).entries.getD ⟨0, 0, []⟩

omit [LinearOrder K] in
theorem kinds_getD {N : Model K S} {kinds : List OpKind} (h : N.ops.map Op.kind = kinds) (ell : Nat)
    (hl : ell < kinds.length) :
    ∃ o, N.ops[ell]? = some o ∧ N.ops.getD ell ⟨.const, none⟩ = o ∧ o.kind = kinds.getD ell .const := by
  subst h
  rw [length_map] at hl
  refine ⟨N.ops[ell], getElem?_eq_getElem hl, getD_eq_getElem _ _ hl, ?_⟩
  rw [getD_eq_getElem _ _ (by rw [length_map]; exact hl), getElem_map]

omit [LinearOrder K] in
theorem entriesAt_spec {models : List (Model K S)} {kinds : List OpKind} {r m : Nat}
    (hk : ∀ N ∈ models, N.ops.map Op.kind = kinds) (hcal : ∀ N ∈ models, ∀ o ∈ N.ops, o.Cal r m) (ell : Nat)
    (hl : ell < kinds.length) :
    (models.map fun N => N.ops.getD ell ⟨.const, none⟩).mapM (entriesOf (kinds.getD ell .const))
      = .ok (entriesAt models ell) ∧
    (∀ A ∈ entriesAt models ell, (kinds.getD ell .const).Fits A r m) ∧
    ∀ (i : Nat) N, models[i]? = some N → ∃ A, (entriesAt models ell)[i]? = some A ∧
      N.ops[ell]? = some ⟨kinds.getD ell .const, some A⟩ := by
  have hone : ∀ N ∈ models, ∃ A, N.ops[ell]? = some ⟨kinds.getD ell .const, some A⟩ ∧
      N.ops.getD ell ⟨.const, none⟩ = ⟨kinds.getD ell .const, some A⟩ ∧
      (kinds.getD ell .const).Fits A r m := by
    intro N hN
    obtain ⟨o, h1, h2, h3⟩ := kinds_getD (hk N hN) ell hl
    obtain ⟨A, hA, hF⟩ := hcal N hN o (mem_of_getElem? h1)
    obtain ⟨k, E⟩ := o
    simp only at hA h3
    subst hA h3
    exact ⟨A, h1, h2, hF⟩
  refine ⟨?_, ?_, ?_⟩
  · rw [mapM_ok_forall2, entriesAt, forall₂_map_left_iff, forall₂_map_right_iff, forall₂_same]
    intro N hN
    obtain ⟨A, -, h2, -⟩ := hone N hN
    rw [h2]
    simp [entriesOf]
  · intro A hA
    obtain ⟨N, hN, rfl⟩ := mem_map.mp hA
    obtain ⟨A', -, h2, h3⟩ := hone N hN
    rw [h2]
    exact h3
  · intro i N hN
    obtain ⟨A, h1, h2, -⟩ := hone N (mem_of_getElem? hN)
    refine ⟨A, ?_, h1⟩
    rw [entriesAt, getElem?_map, hN, Option.map_some, h2]
    rfl

omit [LinearOrder K] in
theorem checkAligned_ok {models : List (Model K S)} {kinds : List OpKind} {us : List Unit}
    (h : models.mapM (checkAligned kinds) = .ok us) :
    ∀ N ∈ models, N.ops.map Op.kind = kinds ∧ N.checkTrained = .ok () := by
  intro N hN
  rw [mapM_ok_forall2] at h
  obtain ⟨i, hi, rfl⟩ := mem_iff_getElem.mp hN
  have := forall₂_getElem? h (getElem?_eq_getElem hi)
    (getElem?_eq_getElem (by rw [← h.length_eq]; exact hi))
  unfold checkAligned at this
  split at this
  · cases this
  · rename_i hk
    exact ⟨not_not.mp hk, this⟩

/-- The operators of an interpolatory model made from models. -/
def interpsOf (c : Option ItpClass) (P : PArr K) (kinds : List OpKind) (models : List (Model K S)) :
    List (Interp K) :=
  (range kinds.length).map fun ell => interpOf (kinds.getD ell .const) c P (entriesAt models ell)

/-- The interpolatory model made from models with the operator classes `kinds`. -/
def interpolated (c : Option ItpClass) (P : PArr K) (kinds : List OpKind) (models : List (Model K S))
    (r m : Nat) : IModel K S :=
  ⟨⟨(interpsOf c P kinds models).map fun t => ⟨.itp t, false⟩,
      (interpsOf c P kinds models).any fun t => t.kind.hasInputs, some r,
      some (if (interpsOf c P kinds models).any fun t => t.kind.hasInputs then m else 0),
      true, none, some P.dim, none⟩, none, []⟩

theorem interpOf_full (kind : OpKind) (c : Option ItpClass) (P : PArr K) (hP : P.WF) (As : List (Mat K))
    (hl : As.length = P.length) (r m : Nat) (hr : 0 < r) (hf : ∀ A ∈ As, kind.Fits A r m) :
    (POp.itp (interpOf kind c P As)).Full r m (some P.dim) :=
  itp_full hr hP rfl rfl hl hf

theorem interpOf_setInterpolator (lib : ItpLib K) (kind : OpKind) (c : ItpClass) (P : PArr K)
    (As : List (Mat K)) (hb : lib.build c P As = .ok ()) :
    (interpOf kind (some c) P As).setInterpolator lib (some c) = (interpOf kind (some c) P As, .ok ()) := by
  simp only [Interp.setInterpolator, interpOf, itpData_some, hb]

/-- Interpolating models succeeds if the interpolators can be built. -/
theorem fromModels_eq [Field K] (lib : ItpLib K) (plain : S) (ps : List (Par K)) (M0 : Model K S)
    (Ms : List (Model K S)) (c : Option ItpClass) (r m : Nat) (hr : 0 < r) (hne : M0.ops ≠ [])
    (hk : ∀ N ∈ Ms, N.ops.map Op.kind = M0.ops.map Op.kind)
    (htr : ∀ N ∈ M0 :: Ms, N.checkTrained = .ok ())
    (hcal : ∀ N ∈ M0 :: Ms, ∀ o ∈ N.ops, o.Cal r m) (P : PArr K) (hP : PArr.ofPars ps = .ok P)
    (hl : (M0 :: Ms).length = P.length)
    (hb : ∀ ell < M0.ops.length, lib.build (itpData c P (entriesAt (M0 :: Ms) ell)).1
      (itpData c P (entriesAt (M0 :: Ms) ell)).2.1 (itpData c P (entriesAt (M0 :: Ms) ell)).2.2 = .ok ()) :
    IModel.fromModels lib plain ps (M0 :: Ms) c
      = .ok (interpolated c P (M0.ops.map Op.kind) (M0 :: Ms) r m) := by
  have hk' : ∀ N ∈ M0 :: Ms, N.ops.map Op.kind = M0.ops.map Op.kind := by
    intro N hN
    rcases mem_cons.mp hN with rfl | hN
    · rfl
    · exact hk N hN
  have hw := (ofPars_wf hP).1
  have hlen : ∀ ell, (entriesAt (M0 :: Ms) ell).length = P.length := by
    intro ell; rw [entriesAt, length_map]; exact hl
  have hal : (M0 :: Ms).mapM (checkAligned (M0.ops.map Op.kind)) = .ok ((M0 :: Ms).map fun _ => ()) := by
    rw [mapM_ok_forall2, forall₂_map_right_iff, forall₂_same]
    intro N hN
    rw [checkAligned, if_neg (not_not.mpr (hk' N hN)), htr N hN]
  have hts : ((range M0.ops.length).mapM fun ell =>
      Interp.fromOperators lib ((M0.ops.map Op.kind).getD ell .const) ps
        ((M0 :: Ms).map fun N => N.ops.getD ell ⟨.const, none⟩) c)
      = .ok (interpsOf c P (M0.ops.map Op.kind) (M0 :: Ms)) := by
    rw [interpsOf, length_map, mapM_ok_forall2, forall₂_map_right_iff, forall₂_same]
    intro ell hell
    have hell' := mem_range.mp hell
    obtain ⟨e1, e2, -⟩ := entriesAt_spec hk' hcal ell (by rw [length_map]; exact hell')
    rw [Interp.fromOperators, e1]
    simp only
    rw [Interp.make_eq lib _ P hw c r m hr _ (hlen ell) e2 ps hP, hb ell hell']
  rw [IModel.fromModels, hal]
  simp only
  rw [hts]
  simp only
  rw [iconstruct_full lib _ plain c r m P.dim]
  · rfl
  · rw [interpsOf, length_map]
    intro h
    rw [map_eq_nil_iff, range_eq_nil, length_eq_zero_iff] at h
    exact hne h
  · intro t ht
    obtain ⟨ell, hell, rfl⟩ := mem_map.mp ht
    obtain ⟨-, e2, -⟩ := entriesAt_spec hk' hcal ell (mem_range.mp hell)
    exact interpOf_full _ c P hw _ (hlen ell) r m hr e2
  · intro t ht c' hc'
    subst hc'
    obtain ⟨ell, hell, rfl⟩ := mem_map.mp ht
    apply interpOf_setInterpolator
    have := hb ell (by simpa using mem_range.mp hell)
    rw [itpData_some] at this
    exact this

/-- What a successful interpolation of models produces. -/
theorem fromModels_inv [Field K] (lib : ItpLib K) (plain : S) (ps : List (Par K)) (M0 : Model K S)
    (Ms : List (Model K S)) (c : Option ItpClass) (N : IModel K S) (r m : Nat) (hr : 0 < r)
    (hne : M0.ops ≠ []) (hcal : ∀ N ∈ M0 :: Ms, ∀ o ∈ N.ops, o.Cal r m)
    (h : IModel.fromModels lib plain ps (M0 :: Ms) c = .ok N) :
    ∃ P, PArr.ofPars ps = .ok P ∧ (M0 :: Ms).length = P.length ∧
      (∀ N ∈ M0 :: Ms, N.ops.map Op.kind = M0.ops.map Op.kind ∧ N.checkTrained = .ok ()) ∧
      (∀ ell < M0.ops.length, lib.build (itpData c P (entriesAt (M0 :: Ms) ell)).1
        (itpData c P (entriesAt (M0 :: Ms) ell)).2.1 (itpData c P (entriesAt (M0 :: Ms) ell)).2.2
        = .ok ()) ∧
      N = interpolated c P (M0.ops.map Op.kind) (M0 :: Ms) r m := by
  have h0 := h
  rw [IModel.fromModels] at h
  cases hal : (M0 :: Ms).mapM (checkAligned (M0.ops.map Op.kind)) with
  | error e => rw [hal] at h; simp at h
  | ok us =>
  rw [hal] at h
  simp only at h
  have hk := checkAligned_ok hal
  cases hts : ((range M0.ops.length).mapM fun ell =>
      Interp.fromOperators lib ((M0.ops.map Op.kind).getD ell .const) ps
        ((M0 :: Ms).map fun N => N.ops.getD ell ⟨.const, none⟩) c) with
  | error e => rw [hts] at h; simp at h
  | ok ts =>
  rw [mapM_ok_forall2] at hts
  have hone : ∀ ell < M0.ops.length, ∃ P, PArr.ofPars ps = .ok P ∧ (M0 :: Ms).length = P.length ∧
      lib.build (itpData c P (entriesAt (M0 :: Ms) ell)).1 (itpData c P (entriesAt (M0 :: Ms) ell)).2.1
        (itpData c P (entriesAt (M0 :: Ms) ell)).2.2 = .ok () := by
    intro ell hell
    have hf := forall₂_getElem? hts (j := ell) (getElem?_eq_getElem (by simpa using hell))
      (getElem?_eq_getElem (by rw [← hts.length_eq]; simpa using hell))
    obtain ⟨e1, e2, -⟩ := entriesAt_spec (fun N hN => (hk N hN).1) hcal ell (by rw [length_map]; exact hell)
    rw [getElem_range, Interp.fromOperators, e1] at hf
    simp only at hf
    obtain ⟨P, p1, -, p3, -, p5⟩ := Interp.make_inv lib _ ps c r m hr _ e2 _ hf
    exact ⟨P, p1, by rw [← p3, entriesAt, length_map], p5⟩
  obtain ⟨P, p1, p2, -⟩ := hone 0 (length_pos_iff.mpr hne)
  have hb : ∀ ell < M0.ops.length, lib.build (itpData c P (entriesAt (M0 :: Ms) ell)).1
      (itpData c P (entriesAt (M0 :: Ms) ell)).2.1 (itpData c P (entriesAt (M0 :: Ms) ell)).2.2
      = .ok () := by
    intro ell hell
    obtain ⟨P', q1, -, q3⟩ := hone ell hell
    rw [p1, Except.ok.injEq] at q1
    subst q1
    exact q3
  refine ⟨P, p1, p2, hk, hb, ?_⟩
  rw [fromModels_eq lib plain ps M0 Ms c r m hr hne (fun N hN => (hk N (mem_cons_of_mem _ hN)).1)
    (fun N hN => (hk N hN).2) hcal P p1 p2 hb, Except.ok.injEq] at h0
  exact h0.symm

end

end Opinf
