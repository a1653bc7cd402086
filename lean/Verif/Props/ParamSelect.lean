import Verif.Lemmas.ParamSelect
import Verif.Props.ParamRom
import Verif.Props.RomSelect
import Verif.Props.InterpRefit

/-!
# C88: regularization selection of parametric reduced-order models
-/

namespace Opinf

open List

variable {K T B S C X : Type}

/-! ### Helpers: models with another solver -/

def PModel.ws (M : PModel K S) (s : Option S) : PModel K S := { M with solver := s }

theorem pclear_ws (M : PModel K S) (s : Option S) : (M.ws s).clear = (M.clear.1.ws s, M.clear.2) := by
  simp only [PModel.clear, PModel.ws, PModel.ops]
  split
  · rfl
  · split <;> rfl

theorem sync_ws (M : PModel K S) (s : Option S) (d : Option Nat) :
    (M.ws s).sync d = ((M.sync d).1.ws s, (M.sync d).2) := by
  simp only [PModel.sync, PModel.ws, PModel.ops]
  split
  · rfl
  · rfl
  · split <;> rfl

theorem psetStateDim_ws (M : PModel K S) (s : Option S) (r : Nat) :
    (M.ws s).setStateDim r = ((M.setStateDim r).1.ws s, (M.setStateDim r).2) := by
  have key : (M.ws s).setStateDim r = if M.ops.any (fun o => o.isCal && o.stateDim != some r)
      then (M.ws s, .error .attribute) else (({ M with r := some r } : PModel K S).ws s, .ok ()) := rfl
  rw [key, PModel.setStateDim]
  split <;> rfl

theorem psetInputDim_ws (M : PModel K S) (s : Option S) (m : Nat) :
    (M.ws s).setInputDim m = ((M.setInputDim m).1.ws s, (M.setInputDim m).2) := by
  have key : (M.ws s).setInputDim m = if !M.hasInputs && m != 0 then (M.ws s, .error .attribute)
      else if M.ops.any (fun o => o.kind.hasInputs && o.isCal && o.inputDim != some m) then
        (M.ws s, .error .attribute)
      else (({ M with m := some m } : PModel K S).ws s, .ok ()) := rfl
  rw [key, PModel.setInputDim]
  split
  · rfl
  · split <;> rfl

theorem plearnState_ws (M : PModel K S) (s : Option S) (Qs : List (Nat × List (List K))) :
    (M.ws s).learnStateDim Qs = ((M.learnStateDim Qs).1.ws s, (M.learnStateDim Qs).2) := by
  have hr : (M.ws s).r = M.r := rfl
  simp only [PModel.learnStateDim, hr]
  split
  · rfl
  · split
    · rfl
    · exact psetStateDim_ws _ _ _

theorem plearnInput_ws (M : PModel K S) (s : Option S) (Us : List (Nat × List (List K))) :
    (M.ws s).learnInputDim Us = ((M.learnInputDim Us).1.ws s, (M.learnInputDim Us).2) := by
  have hm : (M.ws s).m = M.m := rfl
  simp only [PModel.learnInputDim, hm]
  split
  · split
    · rfl
    · exact psetInputDim_ws _ _ _
  · rfl

theorem processInputs_ws (M : PModel K S) (s : Option S) (n : Nat) (states : List (Nat × List (List K)))
    (inputs : Option (List (Arg K))) : (M.ws s).processInputs n states inputs =
      ((M.processInputs n states inputs).1.ws s, (M.processInputs n states inputs).2) := by
  have hh : (M.ws s).hasInputs = M.hasInputs := rfl
  simp only [PModel.processInputs, hh]
  split
  · split
    · rfl
    · rename_i us
      rw [plearnInput_ws]
      rcases M.learnInputDim (us.map atleast2d) with ⟨N, e | _⟩
      · rfl
      · have hm : (N.ws s).m = N.m := rfl
        simp only [hm]
        split <;> rfl
  · rfl

theorem pprocess_ws [CommRing K] (lib : ItpLib K) (M : PModel K S) (s : Option S) (ps : List (Par K))
    (states lhs : List (Arg K)) (inputs : Option (List (Arg K))) :
    (M.ws s).processFitArgs lib ps states lhs inputs =
      ((M.processFitArgs lib ps states lhs inputs).1.ws s, (M.processFitArgs lib ps states lhs inputs).2) := by
  simp only [PModel.processFitArgs]
  rw [pclear_ws]
  rcases M.clear with ⟨M1, e | _⟩
  · rfl
  simp only
  cases paramsDim ps with
  | error e => rfl
  | ok d =>
    simp only
    rw [sync_ws]
    rcases M1.sync (some d) with ⟨M2, e | _⟩
    · rfl
    simp only
    rw [plearnState_ws]
    rcases M2.learnStateDim (states.map atleast2d) with ⟨M3, e | _⟩
    · rfl
    have hr : (M3.ws s).r = M3.r := rfl
    simp only [hr]
    cases checkSets ps.length M3.r (states.map atleast2d) (lhs.map atleast2d) with
    | error e => rfl
    | ok _ =>
      simp only
      rw [processInputs_ws]
      rcases M3.processInputs ps.length (states.map atleast2d) inputs with ⟨M4, e | U⟩
      · rfl
      have hs : (M4.ws s).slots = M4.slots := rfl
      simp only [hs]
      split <;> rfl

/-! ### Setting the regularization before or after the data are handed to the solver -/

theorem pfitSolver_ok [CommRing K] {lib : ItpLib K} {I : SolverI K S} {M M1 : PModel K S} {ps : List (Par K)}
    {states lhs : List (Arg K)} {inputs : Option (List (Arg K))}
    (h : M.fitSolver lib I ps states lhs inputs = (M1, .ok ())) :
    ∃ Y data Z slots D s t, M.processFitArgs lib ps states lhs inputs = (Y, .ok (data, Z)) ∧
      setAllParams ps Y.slots = (slots, .ok ()) ∧
      ({ Y with slots := slots } : PModel K S).dataMatrix data = .ok D ∧ M.solver = some s ∧
      I.fit s D Z.flatten = (t, .ok ()) ∧
      M1 = { Y with slots := slots, solver := some t, s := some ps.length } := by
  simp only [PModel.fitSolver] at h
  rcases hp : M.processFitArgs lib ps states lhs inputs with ⟨Y, e | ⟨data, Z⟩⟩
  · rw [hp] at h; cases h
  rw [hp] at h
  obtain ⟨d, U, -, -, -, -, -, hsol, -⟩ := process_inv lib M Y ps states lhs inputs data Z hp
  simp only at h
  rcases hs : setAllParams ps Y.slots with ⟨slots, e | _⟩
  · rw [hs] at h; cases h
  rw [hs] at h
  simp only at h
  cases hD : ({ Y with slots := slots } : PModel K S).dataMatrix data with
  | error e => rw [hD] at h; cases h
  | ok D =>
    rw [hD] at h
    simp only at h
    cases hso : Y.solver with
    | none => rw [hso] at h; cases h
    | some s =>
      rw [hso] at h
      simp only at h
      rcases hf : I.fit s D Z.flatten with ⟨t, e | _⟩
      · rw [hf] at h; cases h
      · rw [hf] at h
        simp only [Prod.mk.injEq, and_true] at h
        exact ⟨Y, data, Z, slots, D, s, t, rfl, hs, hD, by rw [← hsol, hso], hf, h.symm⟩

theorem pupdate_iff_fit [CommRing K] [LinearOrder K] (lib : ItpLib K) (I : SolverI K S)
    {setReg : S → Point K → S × Except Err Unit} (M M1 : PModel K S) (hint : M.intrusive = false) (s : S)
    (hs : M.solver = some s) (hcom : Commute I setReg s) (ps : List (Par K)) (states lhs : List (Arg K))
    (inputs : Option (List (Arg K))) (hf : M.fitSolver lib I ps states lhs inputs = (M1, .ok ())) (p : Point K)
    (N : PModel K S) : (pSelI lib I setReg).update M1 p = (N, .ok ()) ↔
      ∃ s', setReg s p = (s', .ok ()) ∧
        PModel.fit lib I { M with solver := some s' } ps states lhs inputs = (N, .ok ()) := by
  obtain ⟨Y, data, Z, slots, D, s0, t, hp, hsl, hD, hs0, hfit, rfl⟩ := pfitSolver_ok hf
  rw [hs] at hs0
  cases hs0
  have hfit' : ∀ s', PModel.fit lib I { M with solver := some s' } ps states lhs inputs =
      match I.fit s' D Z.flatten with
      | (t', .error e) => ({ Y with slots := slots, solver := some t' }, .error e)
      | (t', .ok ()) => PModel.refit lib I { Y with slots := slots, solver := some t', s := some ps.length } := by
    intro s'
    have hws := pprocess_ws lib M (some s') ps states lhs inputs
    simp only [PModel.ws] at hws
    have hd : ({ Y with slots := slots, solver := some s' } : PModel K S).dataMatrix data = .ok D := hD
    have hni : ¬ ({ M with solver := some s' } : PModel K S).intrusive = true := by simp [hint]
    rw [PModel.fit, if_neg hni, PModel.fitSolver, hws, hp]
    simp only [hsl, hd]
    rcases I.fit s' D Z.flatten with ⟨t', e | _⟩ <;> rfl
  have hup : (pSelI lib I setReg).update ({ Y with slots := slots, solver := some t, s := some ps.length } : PModel K S)
      p = match setReg t p with
        | (t', .error e) => ({ Y with slots := slots, solver := some t', s := some ps.length }, .error e)
        | (t', .ok ()) => PModel.refit lib I { Y with slots := slots, solver := some t', s := some ps.length } := by
    simp only [SelI.update, pSelI, PModel.assignReg]
    rcases setReg t p with ⟨t', e | _⟩ <;> rfl
  rw [hup]
  constructor
  · intro hu
    rcases hr : setReg t p with ⟨t', e | _⟩
    · rw [hr] at hu; cases hu
    · rw [hr] at hu
      obtain ⟨s', h1, h2⟩ := hcom.1 _ _ _ _ _ hfit hr
      refine ⟨s', h1, ?_⟩
      rw [hfit', h2]
      exact hu
  · rintro ⟨s', h1, h2⟩
    rw [hfit'] at h2
    rcases h3 : I.fit s' D Z.flatten with ⟨t', e | _⟩
    · rw [h3] at h2; cases h2
    · rw [h3] at h2
      simp only [hcom.2 _ _ _ _ _ _ hfit h1 h3]
      exact h2

/-- What `_fit_solver` leaves of the order of the training parameters. -/
theorem pfitSolver_ordered [CommRing K] [LinearOrder K] {lib : ItpLib K} {I : SolverI K S} {M M1 : PModel K S}
    {ps : List (Par K)} {states lhs : List (Arg K)} {inputs : Option (List (Arg K))}
    (h : M.fitSolver lib I ps states lhs inputs = (M1, .ok ())) (hord : ∀ s ∈ M.slots, s.infer = true → s.op.OrderedAt ps) :
    M1.intrusive = M.intrusive ∧ ∀ s ∈ M1.slots, s.infer = true → s.op.Ordered := by
  obtain ⟨Y, data, Z, slots, D, s0, t, hp, hsl, hD, hs0, hfit, rfl⟩ := pfitSolver_ok h
  obtain ⟨d, U, -, hY, -, -, hint, -⟩ := process_inv lib M Y ps states lhs inputs data Z hp
  refine ⟨hint, ?_⟩
  intro s' hs' hi
  obtain ⟨s, hs, h1, h2, h3⟩ := forall₂_mem_right (setAllParams_ok ps _ _ hsl) hs'
  rw [hY] at hs
  obtain ⟨s0, hs0, rfl⟩ := mem_map.1 hs
  have hi0 : s0.infer = true := by rw [h1] at hi; exact hi
  cases ho : s0.op with
  | np o =>
    rw [h3 (by simp [prepSlot, ho, hi0, POp.clear, POp.fill, POp.interp?])]
    simp [prepSlot, ho, hi0, POp.clear, POp.fill, POp.Ordered]
  | aff a =>
    have hno : (prepSlot d s0).op.interp? = none := by
      simp only [prepSlot, ho, hi0, if_true, POp.clear, POp.fill]
      split <;> rfl
    rw [h3 hno]
    have : ∀ o : POp K, o.interp? = none → o.Ordered := by
      intro o ho
      cases o with
      | itp t => cases ho
      | _ => trivial
    exact this _ hno
  | itp t =>
    obtain ⟨t1, e1, e2⟩ := prepSlot_itp d s0 t ho
    obtain ⟨t2, e3, e4⟩ := h2 t1 e1
    rw [e4]
    have horder : t.OrderedAt ps := by
      have := hord s0 hs0 hi0
      rw [ho] at this
      exact this
    simp only [Interp.setParams] at e3
    split at e3
    · cases e3
    · cases hP : PArr.ofPars ps with
      | error e => rw [hP] at e3; cases e3
      | ok P =>
        rw [hP] at e3
        simp only [Except.ok.injEq] at e3
        subst e3
        intro hc xs hx
        refine horder (e2 ▸ hc) xs ?_
        rw [hP]
        exact congrArg Except.ok (Option.some.inj hx)

/-! ### Reduced-order models -/

/-- The reduced-order model whose model has the solver `s`. -/
def PRom.withModel (R : PRom K T B X) (M : X) : PRom K T B X := { R with model := M }

theorem pprocess_withModel (R : PRom K T B X) (M : X) (qs : List (Snap K)) (zs us : Option (List (Snap K)))
    (fitT fitB : Bool) : (R.withModel M).process qs zs us fitT fitB =
      (((R.process qs zs us fitT fitB).1).withModel M, (R.process qs zs us fitT fitB).2) := by
  rw [PRom.process, PRom.process]
  rfl

theorem pselectLists_ok [Field K] [LinearOrder K] (P : ParI K X) (J : SelI K X) (G : Search K)
    (cases : Rom K T B → TrainData K → Except Err (List (RegCase K X) × List (TrainCase K X)))
    (c : Cands K) (only : Bool) (R R' : PRom K T B X) (ps : List (Par K)) (qs : List (Snap K))
    (zs us : Option (List (Snap K))) (fitT fitB : Bool)
    (h : R.selectLists P J G cases c only ps qs zs us fitT fitB = (R', .ok ())) :
    R.checkFitArgs P zs.isNone us.isNone = .ok () ∧ ∃ R1 d M1, R.process qs zs us fitT fitB = (R1, .ok d) ∧
      R' = R1.withModel R'.model ∧
      J.fitSolver R.model ps (d.states.map Snap.toArg) (d.lhs.map Snap.toArg)
        (d.inputs.map fun us => us.map Snap.toArg) = (M1, .ok ()) ∧
      J.select G (cases R1.rom d) c only M1 = (R'.model, .ok ()) := by
  rw [PRom.selectLists] at h
  cases hc : R.checkFitArgs P zs.isNone us.isNone with
  | error e => rw [hc] at h; cases h
  | ok x =>
    rw [hc] at h
    refine ⟨rfl, ?_⟩
    rcases hp : R.process qs zs us fitT fitB with ⟨R1, e | d⟩
    · rw [hp] at h; cases h
    · rw [hp] at h
      simp only at h
      have hm := ((pprocess_eq R R1 qs zs us fitT fitB d).1 hp).1
      rw [hm] at h
      rcases hf : J.fitSolver R.model ps (d.states.map Snap.toArg) (d.lhs.map Snap.toArg)
        (d.inputs.map fun us => us.map Snap.toArg) with ⟨M1, e | _⟩
      · rw [hf] at h; cases h
      · rw [hf] at h
        simp only [Prod.mk.injEq] at h
        obtain ⟨rfl, h⟩ := h
        exact ⟨R1, d, M1, rfl, rfl, hf, Prod.ext rfl h⟩

theorem firstCols_firstCols (k : Nat) (U : Snap K) : (U.firstCols k).firstCols k = U.firstCols k := by
  cases U with
  | vec xs => simp [Snap.firstCols]
  | mat l rows => simp [Snap.firstCols]

/-- The inputs of a fully discrete model have been cut already. -/
theorem train_of_fit [Zero K] (P : ParI K X) (R R1 : PRom K T B X) (qs : List (Snap K))
    (zs us : Option (List (Snap K))) (fitT fitB : Bool) (hd : R.rom.continuous = true ∨ zs = none) (d : TrainData K)
    (hp : R.process qs zs us fitT fitB = (R1, .ok d)) (M : X) (ps : List (Par K)) :
    P.train M R1.rom.continuous ps d = P.fit M ps (d.states.map Snap.toArg) (d.lhs.map Snap.toArg)
      (d.inputs.map fun us => us.map Snap.toArg) := by
  obtain ⟨-, hddt, hp'⟩ := (pprocess_eq R R1 qs zs us fitT fitB d).1 hp
  have hcont : R1.rom.continuous = R.rom.continuous := (process_rest _ _ _ _ _ _ _ _ hp').2
  cases hc : R1.rom.continuous with
  | true => rfl
  | false =>
    rw [hcont] at hc
    have hz : zs = none := by
      rcases hd with hd | hd
      · rw [hd] at hc; cases hc
      · exact hd
    subst hz
    obtain ⟨-, es, -, h2, -, h4⟩ := (C69_discrete (FRom.mk R.rom R.ddt (noModel (K := K))) _ hc qs us fitT fitB d).1 hp'
    have hcut : cutInputs d.states d.inputs = .ok d.inputs := by
      rw [cutInputs_ok, h4]
      refine ⟨fun h => by (cases h), fun _ => ⟨fun h => h, ?_⟩⟩
      intro vs hvs
      cases us with
      | none => cases hvs
      | some us =>
        rw [Option.map_some, Option.mem_some_iff] at hvs
        refine ⟨vs, by rw [Option.map_some, hvs], ?_⟩
        have hmat : ∀ Y ∈ d.states, ∃ k rows, Y = Snap.mat k rows := by
          intro Y hY
          obtain ⟨e, -, he⟩ := forall₂_mem_right h2 hY
          cases e with
          | vec xs => cases he
          | mat k rows => cases he; exact ⟨_, _, rfl⟩
        subst hvs
        clear h4 h2 hp' hp
        generalize d.states = ys at hmat
        induction ys generalizing us with
        | nil => simp
        | cons y ys ih =>
          cases us with
          | nil => simp
          | cons u us =>
            simp only [zipWith_cons_cons, zip_cons_cons]
            refine Forall₂.cons ?_ (ih us fun Y hY => hmat Y (mem_cons_of_mem _ hY))
            obtain ⟨k, rows, rfl⟩ := hmat y mem_cons_self
            exact ⟨k, rows, rfl, (firstCols_firstCols k u).symm⟩
    simp only [ParI.train, Bool.false_eq_true, if_false, hcut]

theorem pfit_withModel_iff [Zero K] (P : ParI K X) (R R1 : PRom K T B X) (M : X) (hin : P.hasInputs M = P.hasInputs R.model)
    (ps : List (Par K)) (qs : List (Snap K)) (zs us : Option (List (Snap K))) (fitT fitB : Bool)
    (hck : R.checkFitArgs P zs.isNone us.isNone = .ok ()) (hd : R.rom.continuous = true ∨ zs = none) (d : TrainData K)
    (hp : R.process qs zs us fitT fitB = (R1, .ok d)) (N : PRom K T B X) :
    (R.withModel M).fit P ps qs zs us fitT fitB = (N, .ok ()) ↔ N = R1.withModel N.model ∧
      P.fit M ps (d.states.map Snap.toArg) (d.lhs.map Snap.toArg)
        (d.inputs.map fun us => us.map Snap.toArg) = (N.model, .ok ()) := by
  have hck' : (R.withModel M).checkFitArgs P zs.isNone us.isNone = .ok () := by
    rw [pcheck_ok] at hck ⊢
    exact ⟨hck.1, fun h => by rw [show (R.withModel M).model = M from rfl, hin]; exact hck.2 h⟩
  have ht := train_of_fit P R R1 qs zs us fitT fitB hd d hp M ps
  rw [PRom.fit, hck']
  simp only
  rw [pprocess_withModel, hp]
  simp only
  change (R1.withModel (P.train M R1.rom.continuous ps d).1, (P.train M R1.rom.continuous ps d).2) = _ ↔ _
  rw [ht]
  generalize P.fit M ps _ _ _ = o
  obtain ⟨M', x⟩ := o
  simp only [Prod.mk.injEq]
  constructor
  · rintro ⟨rfl, rfl⟩
    exact ⟨rfl, rfl, rfl⟩
  · rintro ⟨h1, h2, h3⟩
    rw [h1, ← h2]
    exact ⟨rfl, h3⟩

/-! ### C88 -/

/-- `R'` is the result of selecting the regularization: there are a selected regularization `w` and an error `v` such
that `R'` is the result of `train` with `w` set beforehand, is stable on all cases with mean relative error `v`, and every
candidate for which training gives a model that is stable has at least that error. -/
def PSelectedAsTrained [Field K] [LinearOrder K] (setReg : S → Point K → S × Except Err Unit) (s : S)
    (train : S → PRom K T B X → Prop) (c : Cands K) (only : Bool) (tests : List (RegCase K X))
    (trains : List (TrainCase K X)) (R' : PRom K T B X) : Prop :=
  ∃ w s' v, setReg s w = (s', .ok ()) ∧ train s' R' ∧ (only = true → w ∈ c.points) ∧
    Scores tests trains R'.model v ∧ v.Genuine ∧
    ∀ p ∈ c.points, ∀ s'' N u, setReg s p = (s'', .ok ()) → train s'' N → Scores tests trains N.model u → u.Genuine →
      v.AtMost u

/-- **C88.** Parametric models with one regression problem: a successful selection with any test cases leaves the
reduced-order model, including its transformer and basis, exactly as `fit` with the same parameters and training data does
when the selected regularization is set beforehand; and the selected regularization is best among the candidates in
this sense. Every interpolated operator to be learned must have a class of interpolators, or the parameters must be
vectors or in increasing order. -/
theorem C88_select_partial [Field K] [LinearOrder K] (lib : ItpLib K) (I : SolverI K S)
    {setReg : S → Point K → S × Except Err Unit} {cfg : S → C} (G : Search K) (hO : Overwrites setReg cfg)
    (ho : ∀ st, (G.optimiser st).Honest [])
    (cases : Rom K T B → TrainData K → Except Err (List (RegCase K (PModel K S)) × List (TrainCase K (PModel K S))))
    (c : Cands K) (only : Bool) (R R' : PRom K T B (PModel K S)) (hint : R.model.intrusive = false) (s : S)
    (hs : R.model.solver = some s) (hcom : Commute I setReg s) (ps : List (Par K))
    (hord : ∀ s ∈ R.model.slots, s.infer = true → s.op.OrderedAt ps) (qs : List (Snap K))
    (zs us : Option (List (Snap K))) (fitT fitB : Bool) (hd : R.rom.continuous = true ∨ zs = none)
    (h : R.selectLists (pModelI lib I) (pSelI lib I setReg) G cases c only ps qs zs us fitT fitB = (R', .ok ())) :
    ∃ R1 d tests trains, R.process qs zs us fitT fitB = (R1, .ok d) ∧ R'.rom = R1.rom ∧ R'.ddt = R.ddt ∧
      cases R1.rom d = .ok (tests, trains) ∧
      PSelectedAsTrained setReg s (fun s' N => (R.withModel { R.model with solver := some s' }).fit (pModelI lib I) ps
        qs zs us fitT fitB = (N, .ok ())) c only tests trains R' := by
  obtain ⟨hck, R1, d, M1, hp, hR', hf, hsel⟩ := pselectLists_ok _ _ G cases c only R R' ps qs zs us fitT fitB h
  have hf' : R.model.fitSolver lib I ps (d.states.map Snap.toArg) (d.lhs.map Snap.toArg)
      (d.inputs.map fun us => us.map Snap.toArg) = (M1, .ok ()) := hf
  obtain ⟨hint1, hord1⟩ := pfitSolver_ordered hf' hord
  obtain ⟨tests, trains, w, v, hca, hu, h1, h2, h3, h4⟩ :=
    sel_selected (pSelI_steady lib I hO M1 (hint1.trans hint) hord1) ho _ c only R'.model hsel
  obtain ⟨s', h5, h6⟩ := (pupdate_iff_fit lib I _ _ hint s hs hcom _ _ _ _ hf' _ _).1 hu
  have hddt := ((pprocess_eq R R1 qs zs us fitT fitB d).1 hp).2.1
  have key := fun (s' : S) (N : PRom K T B (PModel K S)) =>
    pfit_withModel_iff (pModelI lib I) R R1 { R.model with solver := some s' } rfl ps qs zs us fitT fitB hck hd d hp N
  refine ⟨R1, d, tests, trains, hp, by rw [hR']; rfl, by rw [hR', ← hddt]; rfl, hca, w, s', v, h5,
    (key s' R').2 ⟨hR', h6⟩, h3, h1, h2, ?_⟩
  intro p hpc s'' N u g1 g2 g3 g4
  have g5 := ((key s'' N).1 g2).2
  exact h4 p hpc N.model u ((pupdate_iff_fit lib I _ _ hint s hs hcom _ _ _ _ hf' _ _).2 ⟨s'', g1, g5⟩) g3 g4

/-- What `fit_regselect_discrete` has checked. -/
theorem selectDiscrete_ok [Field K] [LinearOrder K] (P : ParI K X) (J : SelI K X) (ev : EvalAt K X S) (G : Search K)
    (sqrt : K → K) (c : Cands K) (R R' : PRom K T B X) (ps : List (Par K)) (qs : List (Snap K)) (us : Option (List (Snap K)))
    (fitT fitB only : Bool) (numTest : Int) (margin : K) (tests : List (PDiscTest K))
    (h : R.selectDiscrete P J ev G sqrt c ps qs us fitT fitB only numTest margin tests = (R', .ok ())) :
    R.rom.continuous = false ∧ J.hasSolver R.model = true ∧ 0 ≤ numTest ∧
      R.selectLists P J G (pDiscCases ev sqrt margin numTest.toNat tests ps us) c only ps qs none us fitT fitB
        = (R', .ok ()) := by
  rw [PRom.selectDiscrete] at h
  split at h
  · cases h
  rename_i h1
  split at h
  · cases h
  rename_i h2
  split at h
  · cases h
  rename_i h3
  cases hci : checkSelInputs qs numTest.toNat us with
  | error e => rw [hci] at h; cases h
  | ok y =>
    rw [hci] at h
    exact ⟨by simpa using h1, by simpa using h2, by omega, h⟩

/-- **C88.** A successful `fit_regselect_discrete` of a parametric reduced-order model leaves it exactly as `fit` with
the selected regularization set beforehand. -/
theorem C88_discrete_partial [Field K] [LinearOrder K] (lib : ItpLib K) (I : SolverI K S)
    {setReg : S → Point K → S × Except Err Unit} {cfg : S → C} (G : Search K) (hO : Overwrites setReg cfg)
    (ho : ∀ st, (G.optimiser st).Honest []) (sqrt : K → K) (c : Cands K) (R R' : PRom K T B (PModel K S))
    (hint : R.model.intrusive = false) (s : S) (hs : R.model.solver = some s) (hcom : Commute I setReg s)
    (ps : List (Par K)) (hord : ∀ s ∈ R.model.slots, s.infer = true → s.op.OrderedAt ps) (qs : List (Snap K))
    (us : Option (List (Snap K))) (fitT fitB only : Bool) (numTest : Int) (margin : K) (tests : List (PDiscTest K))
    (h : R.selectDiscrete (pModelI lib I) (pSelI lib I setReg) (pEvalAt lib) G sqrt c ps qs us fitT fitB only numTest
      margin tests = (R', .ok ())) :
    ∃ R1 d tests' trains, R.process qs none us fitT fitB = (R1, .ok d) ∧ R'.rom = R1.rom ∧ R'.ddt = R.ddt ∧
      pDiscCases (pEvalAt lib) sqrt margin numTest.toNat tests ps us R1.rom d = .ok (tests', trains) ∧
      PSelectedAsTrained setReg s (fun s' N => (R.withModel { R.model with solver := some s' }).fit (pModelI lib I) ps
        qs none us fitT fitB = (N, .ok ())) c only tests' trains R' := by
  obtain ⟨-, -, -, h'⟩ := selectDiscrete_ok _ _ _ G sqrt c R R' ps qs us fitT fitB only numTest margin tests h
  exact C88_select_partial lib I G hO ho _ c only R R' hint s hs hcom ps hord qs none us fitT fitB (Or.inr rfl) h'

/-! ### Interpolatory models -/

theorem construct_obj (plain : S) (l2 : Int → S) (ops : List (OpArg K)) (s s' : S) (A : Model K S)
    (h : Model.construct plain l2 ops (.obj s) = .ok A) (hA : A.solver.isSome = true) :
    A.solver = some s ∧ A.intrusive = false ∧
      Model.construct plain l2 ops (.obj s') = .ok { A with solver := some s' } := by
  simp only [Model.construct] at h ⊢
  rcases hx : (Model.blank K S).setOperators ops with ⟨N, e | _⟩
  · rw [hx] at h; cases h
  · rw [hx] at h
    simp only [Model.setSolver] at h ⊢
    cases hi : N.intrusive with
    | true =>
      rw [hi] at h
      simp only [if_true, Except.ok.injEq] at h
      subst h
      cases hA
    | false =>
      rw [hi] at h
      simp only [Bool.false_eq_true, if_false, Except.ok.injEq] at h ⊢
      subst h
      exact ⟨rfl, rfl, rfl⟩

/-- One submodel with another solver. -/
theorem fitSub_iff [CommRing K] (plain : S) (l2 : Int → S) (I : SolverI K S)
    {setReg : S → Point K → S × Except Err Unit} (M : PModel K S) (s s' : S) (hcom : Commute I setReg s) (p : Point K)
    (hs' : setReg s p = (s', .ok ())) (i : Nat) (x : PSet K) (L : List (List K)) (N N' : Model K S)
    (h : fitSub plain l2 I M s i x L = .ok N) :
    ∃ t, N.solver = some t ∧
    (fitSub plain l2 I M s' i x L = .ok N' ↔ ∃ t', setReg t p = (t', .ok ()) ∧ N' = { N with solver := some t' }) := by
  rw [fitSub] at h ⊢
  cases h1 : M.ops.mapM (subOp i) with
  | error e => rw [h1] at h; cases h
  | ok os =>
    rw [h1] at h
    simp only at h ⊢
    cases h2 : os.mapM Op.copy with
    | error e => rw [h2] at h; cases h
    | ok ops =>
      rw [h2] at h
      simp only at h ⊢
      cases h3 : Model.construct plain l2 (ops.map OpArg.op) (.obj s) with
      | error e => rw [h3] at h; cases h
      | ok A =>
        rw [h3] at h
        simp only at h ⊢
        rcases h4 : A.fitSolver I (.mat x.n x.states) (.mat x.n L) (x.inputs.map fun U => .mat U.1 U.2) with
          ⟨N1, e | _⟩
        · rw [h4] at h; cases h
        · rw [h4] at h
          simp only [finish, Except.ok.injEq] at h
          subst h
          obtain ⟨Y, Q, Z, U, s0, t, hp, hs0, hfit, rfl⟩ := fitSolver_ok h4
          obtain ⟨hAs, hAi, hcs⟩ := construct_obj plain l2 _ s s' A h3 (by rw [hs0]; rfl)
          rw [hAs] at hs0
          cases hs0
          refine ⟨t, rfl, ?_⟩
          rw [hcs]
          have hws := process_ws A (some s') (.mat x.n x.states) (.mat x.n L) (x.inputs.map fun U => .mat U.1 U.2)
          simp only [Model.ws] at hws
          have hd : ∀ Q U, ({ Y with solver := some s' } : Model K S).dataMatrix Q U = Y.dataMatrix Q U :=
            fun _ _ => rfl
          simp only [Model.fitSolver, hws, hp, hd]
          rcases h5 : I.fit s' (Y.dataMatrix Q U) Z with ⟨t', e | _⟩
          · simp only [finish, reduceCtorEq, false_iff, not_exists, not_and]
            intro t' ht'
            obtain ⟨s'', g1, g2⟩ := hcom.1 _ _ _ _ _ hfit ht'
            rw [hs'] at g1
            cases g1
            rw [h5] at g2
            cases g2
          · simp only [finish, Except.ok.injEq]
            have h6 := hcom.2 _ _ _ _ _ _ hfit hs' h5
            constructor
            · rintro rfl
              exact ⟨t', h6, rfl⟩
            · rintro ⟨t'', g1, rfl⟩
              rw [h6] at g1
              cases g1
              rfl

theorem fitSub_fit [CommRing K] (plain : S) (l2 : Int → S) (I : SolverI K S) (M : PModel K S) (s : S) (i : Nat)
    (x : PSet K) (L : List (List K)) (N : Model K S) (h : fitSub plain l2 I M s i x L = .ok N) :
    ∃ t D V, N.solver = some t ∧ I.fit s D V = (t, .ok ()) := by
  rw [fitSub] at h
  cases h1 : M.ops.mapM (subOp i) with
  | error e => rw [h1] at h; cases h
  | ok os =>
    rw [h1] at h
    simp only at h
    cases h2 : os.mapM Op.copy with
    | error e => rw [h2] at h; cases h
    | ok ops =>
      rw [h2] at h
      simp only at h
      cases h3 : Model.construct plain l2 (ops.map OpArg.op) (.obj s) with
      | error e => rw [h3] at h; cases h
      | ok A =>
        rw [h3] at h
        simp only at h
        rcases h4 : A.fitSolver I (.mat x.n x.states) (.mat x.n L) (x.inputs.map fun U => .mat U.1 U.2) with
          ⟨N1, e | _⟩
        · rw [h4] at h; cases h
        · rw [h4] at h
          simp only [finish, Except.ok.injEq] at h
          subst h
          obtain ⟨Y, Q, Z, U, s0, t, hp, hs0, hfit, rfl⟩ := fitSolver_ok h4
          obtain ⟨hAs, -, -⟩ := construct_obj plain l2 _ s s A h3 (by rw [hs0]; rfl)
          rw [hAs] at hs0
          cases hs0
          exact ⟨t, _, _, rfl, hfit⟩

theorem subKnownAt_ne [CommRing K] (lib : ItpLib K) (o : POp K) (xs : List (PSet K)) (hx : xs ≠ [])
    (Ls Ls' : List (List (List K))) (hL : Ls ≠ []) (h : subKnownAt lib o xs Ls = .ok Ls') : Ls' ≠ [] := by
  cases xs with
  | nil => exact absurd rfl hx
  | cons x xs =>
    cases Ls with
    | nil => exact absurd rfl hL
    | cons L Ls =>
      simp only [subKnownAt] at h
      split at h
      · cases h
      split at h
      · cases h
      split at h
      · cases h
      · cases h; simp

theorem pSubKnown_ne [CommRing K] (lib : ItpLib K) (data : List (PSet K)) (hd : data ≠ []) (ss : List (PSlot K)) :
    ∀ (Ls Z : List (List (List K))), Ls ≠ [] → pSubKnown lib data ss Ls = .ok Z → Z ≠ [] := by
  induction ss with
  | nil => intro Ls Z hL h; simp only [pSubKnown, Except.ok.injEq] at h; exact h ▸ hL
  | cons s ss ih =>
    intro Ls Z hL h
    simp only [pSubKnown] at h
    split at h
    · exact ih _ _ hL h
    · split at h
      · cases h
      · rename_i h1
        exact ih _ _ (subKnownAt_ne lib s.op data hd _ _ hL h1) h

theorem fitSubs_iff [CommRing K] (plain : S) (l2 : Int → S) (I : SolverI K S)
    {setReg : S → Point K → S × Except Err Unit} (M : PModel K S) (s s' : S) (hcom : Commute I setReg s) (p : Point K)
    (hs' : setReg s p = (s', .ok ())) (xs : List (PSet K)) (Ls : List (List (List K))) :
    ∀ (i : Nat) (Ns Ns' : List (Model K S)), fitSubs plain l2 I M s i xs Ls = .ok Ns →
      (fitSubs plain l2 I M s' i xs Ls = .ok Ns' ↔ assignSubs setReg p Ns = (Ns', .ok ())) := by
  induction xs generalizing Ls with
  | nil =>
    intro i Ns Ns' h
    simp only [fitSubs, Except.ok.injEq] at h
    subst h
    simp only [fitSubs, assignSubs, Except.ok.injEq, Prod.mk.injEq, and_true]
  | cons x xs ih =>
    intro i Ns Ns' h
    cases Ls with
    | nil =>
      simp only [fitSubs, Except.ok.injEq] at h
      subst h
      simp only [fitSubs, assignSubs, Except.ok.injEq, Prod.mk.injEq, and_true]
    | cons L Ls =>
      simp only [fitSubs] at h ⊢
      cases h1 : fitSub plain l2 I M s i x L with
      | error e => rw [h1] at h; cases h
      | ok N =>
        rw [h1] at h
        simp only at h
        cases h2 : fitSubs plain l2 I M s (i + 1) xs Ls with
        | error e => rw [h2] at h; cases h
        | ok Ns0 =>
          rw [h2] at h
          simp only [Except.ok.injEq] at h
          subst h
          obtain ⟨t, ht, -⟩ := fitSub_iff plain l2 I M s s' hcom p hs' i x L N N h1
          have key : ∀ N', fitSub plain l2 I M s' i x L = .ok N' ↔
              ∃ t', setReg t p = (t', .ok ()) ∧ N' = { N with solver := some t' } := by
            intro N'
            obtain ⟨t1, ht1, k⟩ := fitSub_iff plain l2 I M s s' hcom p hs' i x L N N' h1
            rw [ht] at ht1
            cases ht1
            exact k
          have ihs := fun Ns' => ih Ls (i + 1) Ns0 Ns' h2
          simp only [assignSubs, ht]
          rcases hr : setReg t p with ⟨t', e | _⟩
          · have : ∃ e, fitSub plain l2 I M s' i x L = .error e := by
              cases hx : fitSub plain l2 I M s' i x L with
              | error e => exact ⟨e, rfl⟩
              | ok N' =>
                obtain ⟨t2, g, -⟩ := (key N').1 hx
                rw [hr] at g
                cases g
            obtain ⟨e', he⟩ := this
            rw [he]
            simp
          · rw [(key { N with solver := some t' }).2 ⟨t', hr, rfl⟩]
            simp only
            cases hx : fitSubs plain l2 I M s' (i + 1) xs Ls with
            | error e =>
              simp only [reduceCtorEq, Prod.mk.injEq, false_iff, not_and]
              intro _ hok
              have := (ihs (assignSubs setReg p Ns0).1).2 (Prod.ext rfl hok)
              rw [hx] at this
              cases this
            | ok Ns1 =>
              have := (ihs Ns1).1 hx
              rw [this]
              simp only [Except.ok.injEq, Prod.mk.injEq, and_true]

theorem fitSubs_ws [CommRing K] (plain : S) (l2 : Int → S) (I : SolverI K S) (M : PModel K S) (o : Option S) (s : S)
    (xs : List (PSet K)) : ∀ (Ls : List (List (List K))) (i : Nat),
    fitSubs plain l2 I (M.ws o) s i xs Ls = fitSubs plain l2 I M s i xs Ls := by
  induction xs with
  | nil => intro Ls i; rfl
  | cons x xs ih =>
    intro Ls i
    cases Ls with
    | nil => rfl
    | cons L Ls =>
      simp only [fitSubs, ih]
      rfl

theorem fitSubs_length [CommRing K] (plain : S) (l2 : Int → S) (I : SolverI K S) (M : PModel K S) (s : S)
    (xs : List (PSet K)) : ∀ (Ls : List (List (List K))) (i : Nat) (Ns : List (Model K S)),
    fitSubs plain l2 I M s i xs Ls = .ok Ns → Ns = [] → xs = [] ∨ Ls = [] := by
  intro Ls i Ns h hN
  cases xs with
  | nil => exact Or.inl rfl
  | cons x xs =>
    cases Ls with
    | nil => exact Or.inr rfl
    | cons L Ls =>
      simp only [fitSubs] at h
      split at h
      · cases h
      · split at h
        · cases h
        · simp only [Except.ok.injEq] at h
          subst h
          cases hN

/-- What a successful `_fit_solver` of an interpolatory model has done. -/
theorem ifitSolver_ok [CommRing K] {lib : ItpLib K} {plain : S} {l2 : Int → S} {I : SolverI K S} {M M1 : IModel K S}
    {ps : List (Par K)} {states lhs : List (Arg K)} {inputs : Option (List (Arg K))}
    (h : M.fitSolver lib plain l2 I ps states lhs inputs = (M1, .ok ())) :
    ∃ Y data Z s Ns, M.base.processFitArgs lib ps states lhs inputs = (Y, .ok (data, Z)) ∧ M.base.solver = some s ∧
      Y.solver = some s ∧ fitSubs plain l2 I Y s 0 data Z = .ok Ns ∧ M1 = ⟨Y, some Ns, ps⟩ := by
  rw [IModel.fitSolver] at h
  rcases hp : M.base.processFitArgs lib ps states lhs inputs with ⟨Y, e | ⟨data, Z⟩⟩
  · rw [hp] at h; cases h
  rw [hp] at h
  obtain ⟨d, U, -, -, -, -, -, hsol, -⟩ := process_inv lib M.base Y ps states lhs inputs data Z hp
  simp only at h
  cases hs : Y.solver with
  | none => rw [hs] at h; cases h
  | some s =>
    rw [hs] at h
    simp only at h
    cases hf : fitSubs plain l2 I Y s 0 data Z with
    | error e => rw [hf] at h; cases h
    | ok Ns =>
      rw [hf] at h
      simp only [Prod.mk.injEq, and_true] at h
      exact ⟨Y, data, Z, s, Ns, rfl, hsol ▸ hs, hs, hf, h.symm⟩

/-- The interpolatory model whose own solver (the one copied for the submodels) is `s`. -/
def IModel.withSolver (M : IModel K S) (s : S) : IModel K S := { M with base := { M.base with solver := some s } }

theorem irefit_withSolver [AddMonoid K] [LinearOrder K] (lib : ItpLib K) (I : SolverI K S) (M : IModel K S) (s : S) :
    (M.withSolver s).refit lib I = ((M.refit lib I).1.withSolver s, (M.refit lib I).2) := by
  obtain ⟨B, subs, tp⟩ := M
  simp only [IModel.refit, IModel.withSolver]
  cases subs with
  | none => rfl
  | some Ns =>
    simp only
    rcases refitSubs I Ns with ⟨Ns', e | _⟩ <;> rfl

theorem irefit_solver [AddMonoid K] [LinearOrder K] (lib : ItpLib K) (I : SolverI K S) (M : IModel K S) :
    (M.refit lib I).1.base.solver = M.base.solver := by
  obtain ⟨B, subs, tp⟩ := M
  simp only [IModel.refit]
  cases subs with
  | none => rfl
  | some Ns =>
    simp only
    rcases refitSubs I Ns with ⟨Ns', e | _⟩ <;> rfl

theorem iupdate_iff_fit [CommRing K] [LinearOrder K] (lib : ItpLib K) (plain : S) (l2 : Int → S) (I : SolverI K S)
    {setReg : S → Point K → S × Except Err Unit} (M M1 : IModel K S) (hint : M.base.intrusive = false) (s : S)
    (hs : M.base.solver = some s) (hcom : Commute I setReg s) (ps : List (Par K)) (hps : ps ≠ [])
    (states lhs : List (Arg K)) (inputs : Option (List (Arg K)))
    (hf : M.fitSolver lib plain l2 I ps states lhs inputs = (M1, .ok ())) (p : Point K) (N : IModel K S) :
    (iSelI lib plain l2 I setReg).update M1 p = (N, .ok ()) ↔ N.base.solver = some s ∧
      ∃ s', setReg s p = (s', .ok ()) ∧
        IModel.fit lib plain l2 I (M.withSolver s') ps states lhs inputs = (N.withSolver s', .ok ()) := by
  obtain ⟨Y, data, Z, s0, Ns, hp, hs0, hYs, hsub, rfl⟩ := ifitSolver_ok hf
  rw [hs] at hs0
  cases hs0
  have hfit' : ∀ s', IModel.fit lib plain l2 I (M.withSolver s') ps states lhs inputs =
      match fitSubs plain l2 I Y s' 0 data Z with
      | .error e => (⟨Y.ws (some s'), M.subs, M.tparams⟩, .error e)
      | .ok Ns' => (((⟨Y, some Ns', ps⟩ : IModel K S).refit lib I).1.withSolver s',
          ((⟨Y, some Ns', ps⟩ : IModel K S).refit lib I).2) := by
    intro s'
    have hws := pprocess_ws lib M.base (some s') ps states lhs inputs
    have hni : ¬ (M.withSolver s').base.intrusive = true := by simp [IModel.withSolver, hint]
    have hb : (M.withSolver s').base = M.base.ws (some s') := rfl
    rw [IModel.fit, if_neg hni, IModel.fitSolver, hb, hws, hp]
    simp only
    have : (Y.ws (some s')).solver = some s' := rfl
    rw [this]
    simp only [fitSubs_ws]
    cases fitSubs plain l2 I Y s' 0 data Z with
    | error e => rfl
    | ok Ns' => exact irefit_withSolver lib I ⟨Y, some Ns', ps⟩ s'
  have hup : (iSelI lib plain l2 I setReg).update (⟨Y, some Ns, ps⟩ : IModel K S) p =
      match assignSubs setReg p Ns with
        | (Ns', .error e) => (⟨Y, some Ns', ps⟩, .error e)
        | (Ns', .ok ()) => (⟨Y, some Ns', ps⟩ : IModel K S).refit lib I := by
    simp only [SelI.update, iSelI, IModel.assignReg]
    rcases assignSubs setReg p Ns with ⟨t', e | _⟩ <;> rfl
  rw [hup]
  have hne : Ns ≠ [] := by
    intro hN
    obtain ⟨d, U, -, -, -, hin, -, -, hl, -, hl', -, -, hU1, hU2, rfl, hsk⟩ :=
      process_inv lib M.base Y ps states lhs inputs data Z hp
    have hpos : 0 < ps.length := length_pos_iff.2 hps
    have hUl : U.length = ps.length := by
      cases hi : M.base.hasInputs with
      | true => obtain ⟨us, -, rfl, h, -⟩ := hU1 hi; simpa using h
      | false => rw [(hU2 hi).1, length_replicate]
    have hd : makeSets ps (states.map atleast2d) U ≠ [] := by
      rw [← length_pos_iff, makeSets, length_zipWith, length_zip, length_map]
      omega
    rcases fitSubs_length plain l2 I Y s _ Z 0 Ns hsub hN with h | h
    · exact hd h
    · refine pSubKnown_ne lib _ hd Y.slots _ Z ?_ hsk h
      rw [← length_pos_iff, length_map]
      omega
  constructor
  · intro hu
    rcases hr : assignSubs setReg p Ns with ⟨Ns', e | _⟩
    · rw [hr] at hu; cases hu
    · rw [hr] at hu
      have hu : (⟨Y, some Ns', ps⟩ : IModel K S).refit lib I = (N, .ok ()) := hu
      have hNs : N.base.solver = some s := by
        have := irefit_solver lib I (⟨Y, some Ns', ps⟩ : IModel K S)
        rw [hu] at this
        rw [this]
        exact hYs
      refine ⟨hNs, ?_⟩
      obtain ⟨s', h1⟩ : ∃ s', setReg s p = (s', .ok ()) := by
        cases data with
        | nil => simp only [fitSubs, Except.ok.injEq] at hsub; exact absurd hsub.symm hne
        | cons x xs =>
          cases Z with
          | nil => simp only [fitSubs, Except.ok.injEq] at hsub; exact absurd hsub.symm hne
          | cons L Ls =>
            simp only [fitSubs] at hsub
            cases g1 : fitSub plain l2 I Y s 0 x L with
            | error e => rw [g1] at hsub; cases hsub
            | ok N1 =>
              rw [g1] at hsub
              simp only at hsub
              split at hsub
              · cases hsub
              · simp only [Except.ok.injEq] at hsub
                subst hsub
                obtain ⟨t, D, V, q1, q2⟩ := fitSub_fit plain l2 I Y s 0 x L N1 g1
                simp only [assignSubs, q1] at hr
                rcases q4 : setReg t p with ⟨t', e | _⟩
                · rw [q4] at hr; cases hr
                · obtain ⟨s', q5, -⟩ := hcom.1 _ _ _ _ _ q2 q4
                  exact ⟨s', q5⟩
      refine ⟨s', h1, ?_⟩
      rw [hfit', (fitSubs_iff plain l2 I Y s s' hcom p h1 data Z 0 Ns Ns' hsub).2 hr]
      simp only [hu]
  · rintro ⟨hNs, s', h1, h2⟩
    rw [hfit'] at h2
    cases h3 : fitSubs plain l2 I Y s' 0 data Z with
    | error e =>
      rw [h3] at h2
      simp only [Prod.mk.injEq, reduceCtorEq, and_false] at h2
    | ok Ns' =>
      rw [h3] at h2
      have h4 := (fitSubs_iff plain l2 I Y s s' hcom p h1 data Z 0 Ns Ns' hsub).1 h3
      rw [h4]
      simp only [Prod.mk.injEq] at h2
      refine Prod.ext ?_ h2.2
      change ((⟨Y, some Ns', ps⟩ : IModel K S).refit lib I).1 = N
      have h5 := congrArg (fun W : IModel K S => { W with base := { W.base with solver := some s } }) h2.1
      have h6 := irefit_solver lib I (⟨Y, some Ns', ps⟩ : IModel K S)
      rw [show (⟨Y, some Ns', ps⟩ : IModel K S).base.solver = some s from hYs] at h6
      obtain ⟨⟨a1, a2, a3, a4, a5, a6, a7, a8⟩, b, c⟩ := N
      generalize ((⟨Y, some Ns', ps⟩ : IModel K S).refit lib I).1 = W at h5 h6 ⊢
      obtain ⟨⟨a1', a2', a3', a4', a5', a6', a7', a8'⟩, b', c'⟩ := W
      simp only [IModel.withSolver] at h5
      simp only at hNs h6
      subst hNs h6
      exact h5

/-- **C88.** Interpolatory models: a successful selection leaves the reduced-order model as `fit` with the same
parameters and training data does when the selected regularization is set beforehand, except that the solver of the
model (which `fit` copies for the regression problems of the single parameters) is the one from before the selection. -/
theorem C88_interpolatory_partial [Field K] [LinearOrder K] (lib : ItpLib K) (plain : S) (l2 : Int → S)
    (I : SolverI K S) {setReg : S → Point K → S × Except Err Unit} {cfg : S → C} (G : Search K)
    (hO : Overwrites setReg cfg) (ho : ∀ st, (G.optimiser st).Honest [])
    (cases : Rom K T B → TrainData K → Except Err (List (RegCase K (IModel K S)) × List (TrainCase K (IModel K S))))
    (c : Cands K) (only : Bool) (R R' : PRom K T B (IModel K S)) (hint : R.model.base.intrusive = false) (s : S)
    (hs : R.model.base.solver = some s) (hcom : Commute I setReg s) (ps : List (Par K)) (hps : ps ≠ [])
    (hord : ∀ s ∈ R.model.base.slots, s.op.OrderedAt ps) (qs : List (Snap K))
    (zs us : Option (List (Snap K))) (fitT fitB : Bool) (hd : R.rom.continuous = true ∨ zs = none)
    (h : R.selectLists (iModelI lib plain l2 I) (iSelI lib plain l2 I setReg) G cases c only ps qs zs us fitT fitB
      = (R', .ok ())) :
    R'.model.base.solver = some s ∧
    ∃ R1 d tests trains, R.process qs zs us fitT fitB = (R1, .ok d) ∧ R'.rom = R1.rom ∧ R'.ddt = R.ddt ∧
      cases R1.rom d = .ok (tests, trains) ∧
      PSelectedAsTrained setReg s (fun s' N => N.model.base.solver = some s ∧
        (R.withModel (R.model.withSolver s')).fit (iModelI lib plain l2 I) ps qs zs us fitT fitB =
          (N.withModel (N.model.withSolver s'), .ok ())) c only tests trains R' := by
  obtain ⟨hck, R1, d, M1, hp, hR', hf, hsel⟩ := pselectLists_ok _ _ G cases c only R R' ps qs zs us fitT fitB h
  have hf' : R.model.fitSolver lib plain l2 I ps (d.states.map Snap.toArg) (d.lhs.map Snap.toArg)
      (d.inputs.map fun us => us.map Snap.toArg) = (M1, .ok ()) := hf
  have hst : (iSelI lib plain l2 I setReg).Steady M1 (fun N => N.Alike cfg M1) := by
    obtain ⟨Y, data, Z, s0, Ns, hpr, -, -, -, rfl⟩ := ifitSolver_ok hf'
    obtain ⟨d', U, -, hY, -⟩ := process_inv lib _ Y ps _ _ _ data Z hpr
    refine iSelI_steady lib plain l2 I hO _ rfl ?_
    intro x hx
    have hx : x ∈ Y.slots := hx
    rw [hY] at hx
    obtain ⟨s0, hs0, rfl⟩ := mem_map.1 hx
    have hord0 := hord s0 hs0
    cases ho : s0.op with
    | np o =>
      cases hi : s0.infer <;> simp [prepSlot, ho, hi, POp.clear, POp.fill, POp.OrderedAt]
    | aff a =>
      have : ∀ o : POp K, o.interp? = none → o.OrderedAt ps := by
        intro o ho
        cases o with
        | itp t => cases ho
        | _ => trivial
      refine this _ ?_
      cases hi : s0.infer <;> simp only [prepSlot, ho, hi, POp.clear, POp.fill, if_true, if_false, Bool.false_eq_true] <;>
        split <;> rfl
    | itp t =>
      obtain ⟨t1, e1, e2⟩ := prepSlot_itp d' s0 t ho
      rw [e1]
      rw [ho] at hord0
      intro hc
      exact hord0 (e2 ▸ hc)
  obtain ⟨tests, trains, w, v, hca, hu, h1, h2, h3, h4⟩ := sel_selected hst ho _ c only R'.model hsel
  obtain ⟨h0, s', h5, h6⟩ := (iupdate_iff_fit lib plain l2 I _ _ hint s hs hcom _ hps _ _ _ hf' _ _).1 hu
  have hddt := ((pprocess_eq R R1 qs zs us fitT fitB d).1 hp).2.1
  have key := fun (s' : S) (N : PRom K T B (IModel K S)) => pfit_withModel_iff (iModelI lib plain l2 I) R R1
    (R.model.withSolver s') rfl ps qs zs us fitT fitB hck hd d hp (N.withModel (N.model.withSolver s'))
  refine ⟨h0, R1, d, tests, trains, hp, by rw [hR']; rfl, by rw [hR', ← hddt]; rfl, hca, w, s', v, h5,
    ⟨h0, (key s' R').2 ⟨?_, h6⟩⟩, h3, h1, h2, ?_⟩
  · conv_lhs => rw [hR']
    rfl
  · intro p hpc s'' N u g1 g2 g3 g4
    have g5 := ((key s'' N).1 g2.2).2
    exact h4 p hpc N.model u
      ((iupdate_iff_fit lib plain l2 I _ _ hint s hs hcom _ hps _ _ _ hf' _ _).2 ⟨g2.1, s'', g1, g5⟩) g3 g4

end Opinf
