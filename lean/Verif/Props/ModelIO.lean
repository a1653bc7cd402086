import Verif.Model.ModelIO
import Verif.Model.SolverIO
import Verif.Props.InterpFromModels
import Verif.Props.FitDiscrete

/-!
# C84: files of nonparametric models
-/

namespace Opinf

open List

variable {K S : Type}

/-! ### Helpers -/

theorem ofClassName_className (k : OpKind) : OpKind.ofClassName k.className = .ok k := by
  rcases k with _ | _ | k | _ | _
  · rfl
  · rfl
  · cases k <;> rfl
  · rfl
  · rfl

theorem loadH5_saveH5 [AddMonoid K] (o : Op K) : Op.loadH5 o.kind o.saveH5 = o.copy := by
  obtain ⟨k, E⟩ := o
  cases E with
  | none => simp [Op.loadH5, Op.saveH5, H5.str, H5.get?, H5.vals, Op.copy, bind, Except.bind, pure, Except.pure, lookup]
  | some E => simp [Op.loadH5, Op.saveH5, H5.str, H5.get?, H5.vals, Op.copy, bind, Except.bind, lookup]

/-- The named values of a model file. -/
theorem Model.saveH5_shape (save : S → Saved K) (M : Model K S) :
    (M.saveH5 save).1.vals = [("meta.num_operators", .nat M.slots.length), ("meta.r", .nat (M.r.getD 0)),
      ("meta.m", .nat (M.m.getD 0)), ("indices_infer", .nats (indicesOf Slot.infer M.slots)),
      ("indices_known", .nats (indicesOf (fun s => !s.infer) M.slots))] ∧
    ∀ (i : Nat) o, M.ops[i]? = some o → (M.saveH5 save).1.subs[i]? = some o.saveH5 := by
  rw [Model.saveH5]
  cases M.solver with
  | none =>
    refine ⟨rfl, fun i o h => ?_⟩
    simp only [H5.subs, getElem?_map, h, Option.map_some]
  | some s =>
    refine ⟨rfl, fun i o h => ?_⟩
    have hi : i < M.ops.length := (List.getElem?_eq_some_iff.1 h).1
    simp only [H5.subs]
    rw [getElem?_append_left (by rw [length_map]; exact hi), getElem?_map, h]
    rfl

theorem loadOperator_save [AddMonoid K] (save : S → Saved K) (M : Model K S) (i : Nat) (o : Op K)
    (h : M.ops[i]? = some o) : loadOperator (M.saveH5 save).1 i = asLoadError o.copy := by
  rw [loadOperator, (M.saveH5_shape save).2 i o h]
  have : o.saveH5.str "meta.class" = .ok o.kind.className := by
    simp [Op.saveH5, H5.str, H5.get?, H5.vals]
  simp only [bind, Except.bind, this, ofClassName_className, loadH5_saveH5]

theorem mapM_range_load {α β : Type} (l : List α) (f : Nat → Except Err β) (g : α → Except Err β)
    (h : ∀ (i : Nat) a, l[i]? = some a → f i = asLoadError (g a)) :
    asLoadError ((range l.length).mapM f) = asLoadError (l.mapM g) := by
  have key : ∀ bs, (range l.length).mapM f = .ok bs ↔ l.mapM g = .ok bs := by
    intro bs
    rw [mapM_ok_forall2, mapM_ok_forall2, forall₂_iff_get, forall₂_iff_get]
    simp only [length_range, get_eq_getElem, getElem_range]
    refine and_congr_right fun hl => ?_
    constructor
    · intro H i h1 h2
      have h3 := H i h1 h2
      rw [h i _ (getElem?_eq_getElem h1)] at h3
      cases hg : g l[i] with
      | error e => rw [hg] at h3; cases h3
      | ok b => rw [hg] at h3; exact h3
    · intro H i h1 h2
      rw [h i _ (getElem?_eq_getElem h1), H i h1 h2]
      rfl
  cases h1 : (range l.length).mapM f with
  | ok bs => rw [(key bs).1 h1]
  | error e =>
    cases h2 : l.mapM g with
    | ok bs => rw [(key bs).2 h2] at h1; cases h1
    | error e' => rfl

theorem construct_slots (plain : S) (l2 : Int → S) (ops : List (Op K)) (a : SolverArg S) (N : Model K S)
    (h : Model.construct plain l2 (ops.map OpArg.op) a = .ok N) :
    N.slots = ops.map fun o => ⟨o, o.entries.isNone⟩ := by
  have hscan : ∀ (l : List (Op K)) b, ∃ b', scanOps b (l.map OpArg.op) = (b', .ok l) := by
    intro l
    induction l with
    | nil => intro b; exact ⟨b, rfl⟩
    | cons o l ih =>
      intro b
      obtain ⟨b', hb'⟩ := ih (b || o.kind.hasInputs)
      exact ⟨b', by simp only [map_cons, scanOps, OpArg.resolve, hb']⟩
  obtain ⟨b, hb⟩ := hscan ops false
  rw [Model.construct] at h
  rcases hs : (Model.blank K S).setOperators (ops.map OpArg.op) with ⟨M, e | u⟩
  · rw [hs] at h; cases h
  · rw [hs] at h
    have hM : M.slots = ops.map fun o => ⟨o, o.entries.isNone⟩ := by
      rw [Model.setOperators, hb] at hs
      split at hs
      · cases hs
      · simp only at hs
        split at hs
        · cases hs
        · split at hs
          · cases hs
          · split at hs
            · cases hs
            · have := congrArg (fun x => x.1.slots) hs
              exact this.symm
    simp only at h
    rcases hr : M.setSolver plain l2 a with ⟨M', e | u'⟩
    · rw [hr] at h; cases h
    · rw [hr] at h
      obtain rfl := Except.ok.inj h
      rw [← hM]
      unfold Model.setSolver at hr
      split at hr
      · exact (congrArg (fun x => x.1.slots) hr).symm
      · cases a with
        | none => exact (congrArg (fun x => x.1.slots) hr).symm
        | obj s => exact (congrArg (fun x => x.1.slots) hr).symm
        | scalar x =>
          simp only at hr
          split at hr
          · exact (congrArg (fun x => x.1.slots) hr).symm
          · split at hr
            · exact (congrArg (fun x => x.1.slots) hr).symm
            · cases hr

theorem setIndices_eq (a b : List (Slot K)) (h : a.length = b.length) :
    setIndices (indicesOf Slot.infer b) a = zipWith (fun s t => { s with infer := t.infer }) a b := by
  apply ext_getElem
  · simp [setIndices, h]
  · intro i h1 h2
    have hi : i < b.length := by
      simp only [length_zipWith] at h2
      omega
    simp only [setIndices, getElem_zipWith, getElem_range]
    congr 1
    rw [Bool.eq_iff_iff, contains_iff_mem, indicesOf, mem_filter, mem_range]
    simp [hi]

/-! ### Files -/

theorem saveLoad_eq [AddMonoid K] (plain : S) (l2 : Int → S) (M : Model K S) :
    M.saveLoad plain l2 = (M.ops.mapM Op.copy).bind fun ops =>
      (Model.construct plain l2 (ops.map OpArg.op) (.none : SolverArg S)).bind fun N =>
      (Model.restoreDim { N with slots := zipWith (fun s t => { s with infer := t.infer }) N.slots M.slots }
        (M.r.getD 0)).bind fun N => N.restoreInputs (M.m.getD 0) := by
  simp only [Model.saveLoad, bind]
  cases M.ops.mapM Op.copy with
  | error e => rfl
  | ok ops =>
    simp only [Except.bind]
    cases Model.construct plain l2 (ops.map OpArg.op) (.none : SolverArg S) with
    | error e => rfl
    | ok N =>
      simp only [Model.restoreDim]
      generalize ({ N with slots := zipWith (fun s t : Slot K => { s with infer := t.infer }) N.slots M.slots } :
        Model K S) = N1
      by_cases hr : M.r.getD 0 = 0
      · simp only [if_pos hr, Model.restoreInputs]
        split
        · rcases N1.setInputDim (M.m.getD 0) with ⟨N2, e | u⟩ <;> rfl
        · rfl
      · simp only [if_neg hr]
        rcases N1.setStateDim (M.r.getD 0) with ⟨N2, e | u⟩
        · rfl
        · simp only [Model.restoreInputs]
          split
          · rcases N2.setInputDim (M.m.getD 0) with ⟨N3, e | u⟩ <;> rfl
          · rfl

/-- **C84.** Loading what `save()` has written is the same as copying the operators, constructing the model and restoring
the roles of the operators and the dimensions; in particular the solver does not matter, even if it could not be written
completely. -/
theorem C84_file_contents [AddMonoid K] (save : S → Saved K) (plain : S) (l2 : Int → S) (M : Model K S) :
    asLoadError (Model.loadH5 plain l2 (M.saveH5 save).1) = asLoadError (M.saveLoad plain l2) := by
  have hv := (M.saveH5_shape save).1
  have h1 : (M.saveH5 save).1.nat "meta.num_operators" = .ok M.slots.length := by
    rw [H5.nat, H5.get?, hv]; rfl
  have h2 : (M.saveH5 save).1.nat "meta.r" = .ok (M.r.getD 0) := by
    rw [H5.nat, H5.get?, hv]; rfl
  have h3 : (M.saveH5 save).1.nat "meta.m" = .ok (M.m.getD 0) := by
    rw [H5.nat, H5.get?, hv]; rfl
  have h4 : (M.saveH5 save).1.nats "indices_infer" = .ok (indicesOf Slot.infer M.slots) := by
    rw [H5.nats, H5.get?, hv]; rfl
  have h5 : (M.saveH5 save).1.nats "indices_known" = .ok (indicesOf (fun s => !s.infer) M.slots) := by
    rw [H5.nats, H5.get?, hv]; rfl
  have h6 := mapM_range_load M.ops (loadOperator (M.saveH5 save).1) Op.copy
    (fun i o h => loadOperator_save save M i o h)
  have hl : M.ops.length = M.slots.length := by rw [Model.ops, length_map]
  rw [hl] at h6
  simp only [Model.loadH5, Model.saveLoad, bind, Except.bind, h1, h2, h3, h4, h5]
  cases h7 : M.ops.mapM Op.copy with
  | error e =>
    rw [h7] at h6
    cases h8 : (range M.slots.length).mapM (loadOperator (M.saveH5 save).1) with
    | error e' => rfl
    | ok bs => rw [h8] at h6; cases h6
  | ok ops =>
    rw [h7] at h6
    cases h8 : (range M.slots.length).mapM (loadOperator (M.saveH5 save).1) with
    | error e' => rw [h8] at h6; cases h6
    | ok bs =>
      rw [h8] at h6
      obtain rfl : bs = ops := Except.ok.inj h6
      simp only
      cases h9 : Model.construct plain l2 (bs.map OpArg.op) (.none : SolverArg S) with
      | error e => rfl
      | ok N =>
        have hNl : N.slots.length = M.slots.length := by
          rw [construct_slots plain l2 bs _ N h9, length_map, ← hl]
          exact (mapM_ok_forall2.1 h7).length_eq.symm
        simp only [setIndices_eq _ _ hNl]
        generalize ({ N with slots := zipWith (fun s t : Slot K => { s with infer := t.infer }) N.slots M.slots } :
          Model K S) = N1
        rw [Model.restoreDim]
        by_cases hr : M.r.getD 0 = 0
        · simp only [if_pos hr, Model.restoreInputs]
          split
          · rcases N1.setInputDim (M.m.getD 0) with ⟨N2, e | u⟩ <;> rfl
          · rfl
        · simp only [if_neg hr]
          rcases N1.setStateDim (M.r.getD 0) with ⟨N2, e | u⟩
          · rfl
          · simp only [Model.restoreInputs]
            split
            · rcases N2.setInputDim (M.m.getD 0) with ⟨N3, e | u⟩ <;> rfl
            · rfl

/-- **C84, `save()` and `load()`.** Saving raises `FileExistsError` and changes nothing if there is a file that must not
be overwritten. Otherwise other files stay as they are, `save()` raises exactly if writing the solver does, and in both
cases loading the file gives the model of `C84_file_contents`. -/
theorem C84_save_load [AddMonoid K] (save : S → Saved K) (plain : S) (l2 : Int → S) (M : Model K S) (fs : FS K)
    (path : String) (overwrite : Bool) (fs' : FS K) (res : Except Err Unit) (warn : Bool)
    (h : saveFile fs path overwrite (M.saveH5 save) = (fs', res, warn)) :
    ((fs path).isSome → overwrite = false → fs' = fs ∧ res = .error .fileExists) ∧
    (((fs path).isSome → overwrite = true) →
      (∀ p, p ≠ path → fs' p = fs p) ∧
      res = (M.solver.elim (.ok ()) fun s => (save s).2) ∧
      loadFile fs' path (Model.loadH5 plain l2) = asLoadError (M.saveLoad plain l2)) := by
  rw [saveFile] at h
  constructor
  · rintro h1 rfl
    rw [if_pos (by simp [h1])] at h
    simp only [Prod.mk.injEq] at h
    exact ⟨h.1.symm, h.2.1.symm⟩
  · intro h1
    rw [if_neg (by
      rw [Bool.and_eq_true, Bool.not_eq_true']
      rintro ⟨h2, h3⟩
      rw [h1 h2] at h3
      cases h3)] at h
    simp only [Prod.mk.injEq] at h
    obtain ⟨rfl, rfl, -⟩ := h
    refine ⟨fun p hp => by rw [FS.write, if_neg hp], ?_, ?_⟩
    · rw [Model.saveH5]
      cases M.solver <;> rfl
    · rw [loadFile, FS.write, if_pos rfl]
      exact C84_file_contents save plain l2 M

/-- **C84, trained models.** After saving a trained model, `load()` gives a model with the same operators in the same
roles, dimensions, right-hand side, Jacobian and predictions. -/
theorem C84_trained [Field K] [DecidableEq K] (save : S → Saved K) (plain : S) (l2 : Int → S) (M : Model K S) (r m : Nat)
    (hM : M.Trained r m) (fs : FS K) (path : String) (overwrite : Bool) (hw : (fs path).isSome → overwrite = true) :
    ∃ N, loadFile (saveFile fs path overwrite (M.saveH5 save)).1 path (Model.loadH5 plain l2) = .ok N ∧
      N.Equals M ∧ N.slots = M.slots := by
  obtain ⟨N, h1, h2, h3, h4, h5, -⟩ := C20_load_same_model plain l2 M r m hM
  refine ⟨N, ?_, .of (by rw [Model.ops, Model.ops, h2]) h3 h5 h4, h2⟩
  have h6 := ((C84_save_load save plain l2 M fs path overwrite (saveFile fs path overwrite (M.saveH5 save)).1 _ _
    rfl).2 hw).2.2
  rw [h6, h1]
  rfl

/-- The constructor without a solver. -/
theorem construct_plain (plain : S) (l2 : Int → S) (args : List (OpArg K)) (a : SolverArg S) (M : Model K S)
    (hc : Model.construct plain l2 args a = .ok M) (hi : M.intrusive = false) :
    Model.construct plain l2 args (.none : SolverArg S) = .ok { M with solver := some plain } ∧
    ∀ s, a = .obj s → M.solver = some s := by
  rw [Model.construct] at hc ⊢
  rcases hs : (Model.blank K S).setOperators args with ⟨N, e | u⟩ <;> rw [hs] at hc
  · cases hc
  · simp only at hc ⊢
    unfold Model.setSolver at hc ⊢
    by_cases hN : N.intrusive = true
    · rw [if_pos hN] at hc
      obtain rfl := Except.ok.inj hc
      rw [hN] at hi
      cases hi
    · simp only [if_neg hN] at hc ⊢
      cases a with
      | none =>
        obtain rfl := Except.ok.inj hc
        exact ⟨rfl, by simp⟩
      | obj s =>
        obtain rfl := Except.ok.inj hc
        exact ⟨rfl, fun s' h => by cases h; rfl⟩
      | scalar x =>
        refine ⟨?_, by simp⟩
        simp only at hc
        by_cases h0 : x = 0
        · simp only [if_pos h0] at hc
          obtain rfl := Except.ok.inj hc
          rfl
        · by_cases h1 : x > 0
          · simp only [if_neg h0, if_pos h1] at hc
            obtain rfl := Except.ok.inj hc
            rfl
          · simp only [if_neg h0, if_neg h1] at hc
            cases hc

theorem construct_checks (plain : S) (l2 : Int → S) (ops : List (Op K)) (a : SolverArg S) (M : Model K S)
    (hc : Model.construct plain l2 (ops.map OpArg.op) a = .ok M) :
    stateDimCheck ops = .ok M.r ∧ inputDimCheck ops = .ok M.m := by
  have hscan : ∀ (l : List (Op K)) b, ∃ b', scanOps b (l.map OpArg.op) = (b', .ok l) := by
    intro l
    induction l with
    | nil => intro b; exact ⟨b, rfl⟩
    | cons o l ih =>
      intro b
      obtain ⟨b', hb'⟩ := ih (b || o.kind.hasInputs)
      exact ⟨b', by simp only [map_cons, scanOps, OpArg.resolve, hb']⟩
  obtain ⟨b, hb⟩ := hscan ops false
  rw [Model.construct] at hc
  rcases hs : (Model.blank K S).setOperators (ops.map OpArg.op) with ⟨N, e | u⟩
  · rw [hs] at hc; cases hc
  · rw [hs] at hc
    have hN : stateDimCheck ops = .ok N.r ∧ inputDimCheck ops = .ok N.m := by
      rw [Model.setOperators, hb] at hs
      split at hs
      · cases hs
      · simp only at hs
        split at hs
        · cases hs
        · split at hs
          · cases hs
          · rename_i r hr
            split at hs
            · cases hs
            · rename_i m hm
              have h1 := congrArg (fun x => x.1.r) hs
              have h2 := congrArg (fun x => x.1.m) hs
              simp only at h1 h2
              rw [← h1, ← h2]
              exact ⟨hr, hm⟩
    have hM : M.r = N.r ∧ M.m = N.m := by
      simp only at hc
      unfold Model.setSolver at hc
      by_cases hN : N.intrusive = true
      · rw [if_pos hN] at hc
        obtain rfl := Except.ok.inj hc
        exact ⟨rfl, rfl⟩
      · simp only [if_neg hN] at hc
        cases a with
        | none => obtain rfl := Except.ok.inj hc; exact ⟨rfl, rfl⟩
        | obj s => obtain rfl := Except.ok.inj hc; exact ⟨rfl, rfl⟩
        | scalar x =>
          simp only at hc
          by_cases h0 : x = 0
          · simp only [if_pos h0] at hc
            obtain rfl := Except.ok.inj hc
            exact ⟨rfl, rfl⟩
          · by_cases h1 : x > 0
            · simp only [if_neg h0, if_pos h1] at hc
              obtain rfl := Except.ok.inj hc
              exact ⟨rfl, rfl⟩
            · simp only [if_neg h0, if_neg h1] at hc
              cases hc
    rw [hM.1, hM.2]
    exact hN

/-- **C84, models without training.** A model with operators to be learned, as constructed with any solver, is loaded
with the same operators, roles and dimensions but with `PlainSolver`: the solver is in the file but not read. -/
theorem C84_untrained [Field K] (save : S → Saved K) (plain : S) (l2 : Int → S) (ops : List (Op K)) (a : SolverArg S)
    (M : Model K S) (hc : Model.construct plain l2 (ops.map OpArg.op) a = .ok M) (hi : M.intrusive = false)
    (hgood : ∀ o ∈ ops, o.Good) (fs : FS K) (path : String) (overwrite : Bool)
    (hw : (fs path).isSome → overwrite = true) :
    loadFile (saveFile fs path overwrite (M.saveH5 save)).1 path (Model.loadH5 plain l2) =
      .ok { M with solver := some plain } := by
  have h6 := ((C84_save_load save plain l2 M fs path overwrite (saveFile fs path overwrite (M.saveH5 save)).1 _ _
    rfl).2 hw).2.2
  have hslots := construct_slots plain l2 ops a M hc
  have hops : M.ops = ops := by
    rw [Model.ops, hslots, map_map]
    exact map_id' ops
  obtain ⟨hr, hm⟩ := construct_checks plain l2 ops a M hc
  have hload : M.saveLoad plain l2 = .ok { M with solver := some plain } := by
    rw [saveLoad_eq, hops, mapM_copy _ hgood]
    simp only [Except.bind, (construct_plain plain l2 _ a M hc hi).1]
    have hz : zipWith (fun s t : Slot K => { s with infer := t.infer }) M.slots M.slots = M.slots := by
      rw [zipWith_self]
      exact map_id'' (fun _ => rfl) _
    rw [hz]
    have hdim : ({ M with solver := some plain } : Model K S).restoreDim (M.r.getD 0) =
        .ok { M with solver := some plain } := by
      rw [Model.restoreDim]
      by_cases h0 : M.r.getD 0 = 0
      · rw [if_pos h0]
      · rw [if_neg h0]
        obtain ⟨r, hr'⟩ : ∃ r, M.r = some r := by
          cases hM : M.r with
          | none => rw [hM] at h0; simp at h0
          | some r => exact ⟨r, rfl⟩
        have : ({ M with solver := some plain } : Model K S).setStateDim (M.r.getD 0) =
            ({ M with solver := some plain }, .ok ()) := by
          rw [Model.setStateDim, if_neg]
          · rw [hr', Option.getD_some, ← hr']
          · rw [Bool.not_eq_true, any_eq_false]
            intro o ho
            have ho' : o ∈ ops := hops ▸ ho
            cases hE : o.entries with
            | none => simp
            | some E =>
              have := stateDimCheck_ok hr o ho' E hE
              rw [this]
              simp [Op.stateDim, hE]
        rw [this]
    rw [hdim]
    simp only [Except.bind, Model.restoreInputs]
    split
    · rename_i h0
      obtain ⟨m, hm'⟩ : ∃ m, M.m = some m := by
        cases hM : M.m with
        | none => rw [hM] at h0; simp at h0
        | some m => exact ⟨m, rfl⟩
      have : ({ M with solver := some plain } : Model K S).setInputDim (M.m.getD 0) =
          ({ M with solver := some plain }, .ok ()) := by
        rw [Model.setInputDim, if_neg (by simp [h0.2]), if_neg]
        · rw [hm', Option.getD_some, ← hm']
        · rw [Bool.not_eq_true, any_eq_false]
          intro o ho
          have ho' : o ∈ ops := hops ▸ ho
          cases hk : o.kind.hasInputs with
          | false => simp
          | true =>
            cases hE : o.entries with
            | none => simp
            | some E =>
              obtain ⟨d, hd⟩ : ∃ d, o.inputDim = some d := by
                obtain ⟨k, E'⟩ := o
                simp only at hE
                subst hE
                rcases k with _ | _ | k | _ | _ <;> simp [OpKind.hasInputs] at hk
                · exact ⟨_, rfl⟩
                · exact ⟨_, rfl⟩
              have := (inputDimCheck_ok hm).1 o ho' hk d hd
              rw [this, hd]
              simp
      rw [this]
    · rfl
  rw [h6, hload]
  rfl

/-- **C84 is false of the code:** the loaded model does not have the solver of the saved one. -/
theorem C84_solver_lost [Field K] (save : S → Saved K) (plain s : S) (l2 : Int → S) (ops : List (Op K))
    (M : Model K S) (hc : Model.construct plain l2 (ops.map OpArg.op) (.obj s) = .ok M) (hi : M.intrusive = false)
    (hgood : ∀ o ∈ ops, o.Good) (hs : s ≠ plain) (fs : FS K) (path : String) (overwrite : Bool)
    (hw : (fs path).isSome → overwrite = true) :
    ∃ N, loadFile (saveFile fs path overwrite (M.saveH5 save)).1 path (Model.loadH5 plain l2) = .ok N ∧
      M.solver = some s ∧ N.solver = some plain ∧ N.solver ≠ M.solver := by
  refine ⟨_, C84_untrained save plain l2 ops (.obj s) M hc hi hgood fs path overwrite hw,
    (construct_plain plain l2 _ _ M hc hi).2 s rfl, rfl, ?_⟩
  rw [(construct_plain plain l2 _ _ M hc hi).2 s rfl]
  simpa using hs.symm

/-- **C84, errors.** Whatever is in the file system, `load()` raises nothing but `FileNotFoundError` (exactly if there is
no file) and `LoadfileFormatError`. -/
theorem C84_load_errors [AddMonoid K] (plain : S) (l2 : Int → S) (fs : FS K) (path : String) :
    (fs path = none → loadFile fs path (Model.loadH5 plain l2) = .error .fileNotFound) ∧
    ∀ h, fs path = some h → (∃ N, loadFile fs path (Model.loadH5 plain l2) = .ok N ∧ Model.loadH5 plain l2 h = .ok N) ∨
      loadFile fs path (Model.loadH5 plain l2) = .error .loadfileFormat := by
  refine ⟨fun h => by rw [loadFile, h], fun h hh => ?_⟩
  rw [loadFile, hh]
  simp only
  cases Model.loadH5 plain l2 h with
  | ok N => exact Or.inl ⟨N, rfl, rfl⟩
  | error e => exact Or.inr rfl

/-! ### Examples -/

/-- The regularization parameter and the data. -/
abbrev Ridge := ℚ × Option (Mat ℚ × List (List ℚ))

/-- Without regularization. -/
def ridgePlain : Ridge := (0, none)

/-- With a number as the regularization parameter. -/
def ridgeOf (x : Int) : Ridge := (x, none)

/-- Regularized least squares for one unknown. -/
def ridge : SolverI ℚ Ridge where
  fit s D Z := ((s.1, some (D, Z)), .ok ())
  solve s := match s.2 with
    | none => .error .attribute
    | some (D, Z) => .ok ⟨1, 1, [[(zipWith (fun d z => d.headD 0 * z.headD 0) D.rows Z).sum /
        ((D.rows.map fun d => d.headD 0 * d.headD 0).sum + s.1 * s.1)]]⟩

/-- A solver file with the regularization parameter; writing data is not possible. -/
def ridgeSave (s : Ridge) : Saved ℚ :=
  (.node [("regularizer", .arr [s.1])] [], if s.2.isSome then .error .attribute else .ok ())

/-- A model with a linear operator to be learned with regularization parameter 1. -/
def ridgeModel : Except Err (Model ℚ Ridge) :=
  Model.construct ridgePlain ridgeOf [.op ⟨.lin, none⟩] (.obj (1, none))

/-- **C84 is false of the code:** training the model gives 1/2, training what is loaded from its file gives 1. -/
theorem C84_solver_witness :
    (ridgeModel.map fun M => (M.fit ridge (.mat 1 [[1]]) (.mat 1 [[1]]) none).1.ops.map Op.entries) =
      .ok [some ⟨1, 1, [[1 / 2]]⟩] ∧
    ((ridgeModel.bind fun M => loadFile (saveFile (fun _ => none) "model.h5" false (M.saveH5 ridgeSave)).1 "model.h5"
        (Model.loadH5 ridgePlain ridgeOf)).map fun N =>
      (N.fit ridge (.mat 1 [[1]]) (.mat 1 [[1]]) none).1.ops.map Op.entries) =
      .ok [some ⟨1, 1, [[1]]⟩] := by
  constructor <;> decide +kernel

-- the hypotheses of `C84_untrained`
example : (ridgeModel.map fun M => (M.intrusive, M.solver.map Prod.fst)) = .ok (false, some 1) ∧
    ∀ o ∈ [(⟨.lin, none⟩ : Op ℚ)], o.Good := by
  refine ⟨by decide +kernel, ?_⟩
  intro o ho E hE
  simp only [mem_cons, not_mem_nil, or_false] at ho
  subst ho
  cases hE

-- the trained model: its solver cannot be written, so `save` raises, but the file can be loaded
example : ((ridgeModel.map fun M => (M.fit ridge (.mat 1 [[1]]) (.mat 1 [[1]]) none).1).map fun M =>
      (saveFile (fun _ => none) "model.h5" false (M.saveH5 ridgeSave)).2.1) = .ok (.error .attribute) ∧
    (((ridgeModel.map fun M => (M.fit ridge (.mat 1 [[1]]) (.mat 1 [[1]]) none).1).bind fun M =>
      loadFile (saveFile (fun _ => none) "model.h5" false (M.saveH5 ridgeSave)).1 "model.h5"
        (Model.loadH5 ridgePlain ridgeOf)).map fun N => N.ops.map Op.entries) =
      .ok [some ⟨1, 1, [[1 / 2]]⟩] := by
  constructor <;> decide +kernel

-- the trained model with inputs of `ModelCopy`
example : ∃ N, loadFile (saveFile (fun _ => none) "model.h5" false (exTrained.saveH5 fun _ => (.node [] [], .ok ()))).1
      "model.h5" (Model.loadH5 none fun _ => none) = .ok N ∧ N.Equals exTrained ∧ N.slots = exTrained.slots :=
  C84_trained _ _ _ _ _ _ exTrained_trained _ _ _ (by simp)

end Opinf
