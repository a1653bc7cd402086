import Verif.Model.ParamRom
import Verif.Props.ParamOptimal
import Verif.Props.RomFitMisuse
import Verif.Props.Rom

/-!
# C86: training and evaluating parametric reduced-order models
-/

namespace Opinf

open List

variable {K T B S X : Type}

/-! ### Specification -/

/-- The parts of `R'` other than the model are those of `R` after training. -/
def PRom.Calibrated (R R' : PRom K T B X) (fitT fitB : Bool) (qs : List (Snap K)) : Prop :=
  R'.ddt = R.ddt ∧ Opinf.Calibrated R.rom R'.rom fitT fitB qs

/-- The inputs a model is trained with: those given, and for fully discrete models, trajectory by trajectory, as many
of them as there are states. -/
def TrainInputs (continuous : Bool) (states : List (Snap K)) (us us' : Option (List (Snap K))) : Prop :=
  (continuous = true → us' = us) ∧
  (continuous = false → (us = none → us' = none) ∧
    ∀ vs ∈ us, ∃ ws, us' = some ws ∧
      Forall₂ (fun x w => ∃ k rows, x.2 = Snap.mat k rows ∧ w = x.1.firstCols k) (zip vs states) ws)

/-- The model `M` has become `M'` by `fit` with the parameters `ps` and the processed data `d`. -/
def ParI.Fitted [Zero K] (P : ParI K X) (M M' : X) (ps : List (Par K)) (continuous : Bool) (d : TrainData K) : Prop :=
  ∃ us', TrainInputs continuous d.states d.inputs us' ∧
    P.fit M ps (d.states.map Snap.toArg) (d.lhs.map Snap.toArg) (us'.map fun us => us.map Snap.toArg) = (M', .ok ())

/-- The samples `(mu, q, u)` of trajectories, one for each parameter. -/
def parSamples [Zero K] (hasIn : Bool) (ps : List (Par K)) (states : List (Snap K)) (inputs : Option (List (Snap K))) :
    List (Par K × List K × Option (List K)) :=
  dataSamples (if hasIn then
      zipWith (fun mu x => (mu, x.1.columnList, some x.2.columnList)) ps (zip states (inputs.getD []))
    else zipWith (fun mu Q => (mu, Q.columnList, none)) ps states)

/-! ### Processing and fitting -/

theorem pprocess_eq (R R' : PRom K T B X) (qs : List (Snap K)) (lhs us : Option (List (Snap K))) (fitT fitB : Bool)
    (d : TrainData K) : R.process qs lhs us fitT fitB = (R', .ok d) ↔
      R'.model = R.model ∧ R'.ddt = R.ddt ∧
      (FRom.mk R.rom R.ddt (noModel (K := K))).process qs lhs us fitT fitB =
        (FRom.mk R'.rom R'.ddt (noModel (K := K)), .ok d) := by
  rw [PRom.process]
  rcases h : (FRom.mk R.rom R.ddt (noModel (K := K))).process qs lhs us fitT fitB with ⟨F, out⟩
  have hF : F.ddt = R.ddt ∧ F.model = noModel := by
    rw [FRom.process] at h
    split at h <;> · injection h with h _; rw [← h]; exact ⟨rfl, rfl⟩
  obtain ⟨rom, ddt, model⟩ := F
  obtain ⟨rfl, rfl⟩ := hF
  obtain ⟨rom', ddt', model'⟩ := R'
  simp only [Prod.mk.injEq, PRom.mk.injEq, FRom.mk.injEq]
  constructor
  · rintro ⟨⟨rfl, rfl, rfl⟩, rfl⟩; exact ⟨rfl, rfl, ⟨rfl, rfl, trivial⟩, rfl⟩
  · rintro ⟨rfl, rfl, ⟨rfl, -, -⟩, rfl⟩; exact ⟨⟨rfl, rfl, rfl⟩, rfl⟩

theorem cutInputs_ok (states : List (Snap K)) (us us' : Option (List (Snap K))) :
    cutInputs states us = .ok us' ↔ TrainInputs false states us us' := by
  have hcut : ∀ x : Snap K × Snap K, ∀ w, cutTo x.1 x.2 = .ok w ↔
      ∃ k rows, x.2 = Snap.mat k rows ∧ w = x.1.firstCols k := by
    rintro ⟨U, Q⟩ w
    cases Q with
    | vec xs => simp [cutTo]
    | mat k rows => simp [cutTo, eq_comm]
  simp only [TrainInputs, Bool.false_eq_true, false_implies, true_and, forall_const]
  cases us with
  | none => simp [cutInputs, eq_comm]
  | some vs =>
    simp only [cutInputs, reduceCtorEq, false_implies, true_and, Option.mem_some_iff, forall_eq']
    cases h : (zip vs states).mapM fun x => cutTo x.1 x.2 with
    | error e =>
      simp only [Except.map, reduceCtorEq, false_iff, not_exists, not_and]
      intro ws _ hw
      have : (zip vs states).mapM (fun x => cutTo x.1 x.2) = .ok ws := by
        rw [mapM_ok_forall2]
        exact hw.imp fun x w h => (hcut x w).2 h
      rw [h] at this
      cases this
    | ok ws =>
      rw [mapM_ok_forall2] at h
      simp only [Except.map, Except.ok.injEq]
      constructor
      · rintro rfl
        exact ⟨ws, rfl, h.imp fun x w h => (hcut x w).1 h⟩
      · rintro ⟨ws', rfl, h'⟩
        congr 1
        refine right_unique_forall₂' (R := fun (x : Snap K × Snap K) w => cutTo x.1 x.2 = .ok w) ?_ h
          (h'.imp fun x w h => (hcut x w).2 h)
        intro a b c h1 h2
        rw [h1] at h2
        exact Except.ok.inj h2

theorem train_ok [Zero K] (P : ParI K X) (M M' : X) (c : Bool) (ps : List (Par K)) (d : TrainData K) :
    P.train M c ps d = (M', .ok ()) ↔ P.Fitted M M' ps c d := by
  cases c with
  | true =>
    simp only [ParI.train, if_true, ParI.Fitted, TrainInputs, forall_const, Bool.true_eq_false, false_implies, and_true]
    constructor
    · intro h; exact ⟨_, rfl, h⟩
    · rintro ⟨_, rfl, h⟩; exact h
  | false =>
    simp only [ParI.train, Bool.false_eq_true, if_false, ParI.Fitted, ← cutInputs_ok]
    cases h : cutInputs d.states d.inputs with
    | error e => simp
    | ok us => simp

theorem pcheck_ok (P : ParI K X) (R : PRom K T B X) (a b : Bool) : R.checkFitArgs P a b = .ok () ↔
    (a = true → R.rom.continuous = true → R.ddt.isSome = true) ∧ (b = true → P.hasInputs R.model = false) := by
  rw [PRom.checkFitArgs]
  cases a <;> cases b <;> cases R.rom.continuous <;> cases R.ddt <;> cases P.hasInputs R.model <;> simp

theorem pfit_ok [Zero K] (P : ParI K X) (R R' : PRom K T B X) (ps : List (Par K)) (qs : List (Snap K))
    (lhs us : Option (List (Snap K))) (fitT fitB : Bool) :
    R.fit P ps qs lhs us fitT fitB = (R', .ok ()) ↔ R.checkFitArgs P lhs.isNone us.isNone = .ok () ∧
      ∃ d, (FRom.mk R.rom R.ddt (noModel (K := K))).process qs lhs us fitT fitB =
        (FRom.mk R'.rom R'.ddt (noModel (K := K)), .ok d) ∧ R'.ddt = R.ddt ∧
        P.Fitted R.model R'.model ps R'.rom.continuous d := by
  rw [PRom.fit]
  cases hc : R.checkFitArgs P lhs.isNone us.isNone with
  | error e => simp
  | ok u =>
    simp only [true_and]
    rcases hp : R.process qs lhs us fitT fitB with ⟨R1, e | d⟩
    · simp only [Prod.mk.injEq, reduceCtorEq, and_false, false_iff, not_exists]
      rintro d ⟨h1, h2, -⟩
      have := (pprocess_eq R { R' with model := R.model } qs lhs us fitT fitB d).2 ⟨rfl, h2, h1⟩
      rw [hp] at this
      cases this
    · have h1 := (pprocess_eq R R1 qs lhs us fitT fitB d).1 hp
      simp only [Prod.mk.injEq]
      constructor
      · rintro ⟨rfl, h⟩
        refine ⟨d, h1.2.2, h1.2.1, ?_⟩
        rw [← train_ok, ← h1.1, ← h]
      · rintro ⟨d', h2, h3, h4⟩
        have h5 := (pprocess_eq R { R' with model := R.model } qs lhs us fitT fitB d').2 ⟨rfl, h3, h2⟩
        rw [hp] at h5
        injection h5 with h5 h6
        injection h6 with h6
        subst h6 h5
        rw [← train_ok] at h4
        simp only [h4]
        exact ⟨trivial, trivial⟩

/-! ### C86: the training data -/

/-- **C86.** Without the left-hand sides or the inputs that are needed, `fit` raises ValueError and changes nothing. -/
theorem C86_missing [Zero K] (P : ParI K X) (R : PRom K T B X) (ps : List (Par K)) (qs : List (Snap K))
    (lhs us : Option (List (Snap K))) (fitT fitB : Bool)
    (h : (lhs = none ∧ R.rom.continuous = true ∧ R.ddt = none) ∨ (us = none ∧ P.hasInputs R.model = true)) :
    R.fit P ps qs lhs us fitT fitB = (R, .error .value) := by
  have : R.checkFitArgs P lhs.isNone us.isNone = .error .value := by
    rw [PRom.checkFitArgs]
    rcases h with ⟨rfl, h1, h2⟩ | ⟨rfl, h1⟩
    · simp [h1, h2]
    · split
      · rfl
      · simp [h1]
  rw [PRom.fit, this]

/-- **C86.** With left-hand sides: training succeeds exactly if, with the transformer and the basis calibrated to all
trajectories together, the model can be fitted to the parameters and what `encode(states, lhs)` gives for every
trajectory. -/
theorem C86_given_lhs [Zero K] (P : ParI K X) (R R' : PRom K T B X) (ps : List (Par K)) (qs zs : List (Snap K))
    (hlen : zs.length = qs.length) (us : Option (List (Snap K))) (fitT fitB : Bool) :
    R.fit P ps qs (some zs) us fitT fitB = (R', .ok ()) ↔
      (us = none → P.hasInputs R.model = false) ∧ R.Calibrated R' fitT fitB qs ∧
      ∃ d : TrainData K, d.inputs = us ∧ d.states.length = qs.length ∧ d.lhs.length = qs.length ∧
        Forall₂ (fun x y => (R'.rom.encode x.1 (some x.2) false false false).out = .ok (y.1, some y.2)) (zip qs zs)
          (zip d.states d.lhs) ∧
        P.Fitted R.model R'.model ps R'.rom.continuous d := by
  rw [pfit_ok, pcheck_ok]
  simp only [C69_given_lhs _ _ _ _ hlen, FRom.Calibrated, PRom.Calibrated, Option.isNone_some, Bool.false_eq_true,
    false_implies, true_and, Option.isNone_iff_eq_none]
  constructor
  · rintro ⟨h1, d, ⟨⟨h2, h3⟩, h4, h5, h6, h7⟩, h8, h9⟩
    exact ⟨h1, ⟨h8, h3⟩, d, h4, h5, h6, h7, h9⟩
  · rintro ⟨h1, ⟨h8, h3⟩, d, h4, h5, h6, h7, h9⟩
    exact ⟨h1, d, ⟨⟨h8, h3⟩, h4, h5, h6, h7⟩, h8, h9⟩

/-- **C86.** A fully discrete model is trained, without left-hand sides, with the encoded states without the last one
and the encoded states without the first one of every trajectory, and as many inputs. -/
theorem C86_discrete [Zero K] (P : ParI K X) (R R' : PRom K T B X) (hc : R.rom.continuous = false) (ps : List (Par K))
    (qs : List (Snap K)) (us : Option (List (Snap K))) (fitT fitB : Bool) :
    R.fit P ps qs none us fitT fitB = (R', .ok ()) ↔
      (us = none → P.hasInputs R.model = false) ∧ R.Calibrated R' fitT fitB qs ∧
      ∃ (es : List (Snap K)) (d : TrainData K), Forall₂ (fun q e => R'.rom.encode1 q = .ok e) qs es ∧
        Forall₂ (fun e y => e.initCols = .ok y) es d.states ∧ Forall₂ (fun e z => e.tailCols = .ok z) es d.lhs ∧
        d.inputs = us.map (fun us => zipWith (fun Y U => U.firstCols Y.ncolumns) d.states us) ∧
        P.Fitted R.model R'.model ps false d := by
  rw [pfit_ok, pcheck_ok]
  simp only [C69_discrete (FRom.mk R.rom R.ddt (noModel (K := K))) _ hc, FRom.Calibrated, PRom.Calibrated, hc,
    Bool.false_eq_true, false_implies, implies_true, true_and, Option.isNone_iff_eq_none]
  constructor
  · rintro ⟨h1, d, ⟨⟨h2, h3⟩, es, h4, h5, h6, h7⟩, h8, h9⟩
    exact ⟨h1, ⟨h8, h3⟩, es, d, h4, h5, h6, h7, by rw [← hc, ← h3.2.1]; exact h9⟩
  · rintro ⟨h1, ⟨h8, h3⟩, es, d, h4, h5, h6, h7, h9⟩
    exact ⟨h1, d, ⟨⟨h8, h3⟩, es, h4, h5, h6, h7⟩, h8, by rw [h3.2.1, hc]; exact h9⟩

/-- **C86.** A time-continuous model is trained, without left-hand sides and inputs, with what the estimator makes of
the encoded states of every trajectory. -/
theorem C86_estimated [Zero K] (P : ParI K X) (R R' : PRom K T B X) (hc : R.rom.continuous = true) (E : DdtI K)
    (hE : R.ddt = some E) (ps : List (Par K)) (qs : List (Snap K)) (fitT fitB : Bool) :
    R.fit P ps qs none none fitT fitB = (R', .ok ()) ↔
      P.hasInputs R.model = false ∧ R.Calibrated R' fitT fitB qs ∧ qs ≠ [] ∧
      ∃ es xs, Forall₂ (fun q e => R'.rom.encode1 q = .ok e) qs es ∧ Forall₂ (fun e x => E.estimate e = .ok x) es xs ∧
        P.Fitted R.model R'.model ps true ⟨xs.map Prod.fst, xs.map Prod.snd, none⟩ := by
  rw [pfit_ok, pcheck_ok]
  simp only [C69_estimated (FRom.mk R.rom (some E) (noModel (K := K))) _ hc E rfl, FRom.Calibrated, PRom.Calibrated, hE,
    Option.isSome_some, implies_true, true_and, Option.isNone_none, forall_const]
  constructor
  · rintro ⟨h1, ⟨a, b, c⟩, ⟨⟨h2, h3⟩, h4, h5, es, xs, h6, h7, h8, h9⟩, h10, h11⟩
    simp only at h4 h8 h9
    subst h4 h8 h9
    refine ⟨h1, ⟨h10, h3⟩, h5, es, xs, h6, h7, ?_⟩
    rw [← hc, ← h3.2.1]
    exact h11
  · rintro ⟨h1, ⟨h10, h3⟩, h5, es, xs, h6, h7, h11⟩
    refine ⟨h1, ⟨xs.map Prod.fst, xs.map Prod.snd, none⟩, ⟨⟨h10, h3⟩, rfl, h5, es, xs, h6, h7, rfl, rfl⟩, h10, ?_⟩
    rw [h3.2.1, hc]
    exact h11

/-- **C86.** The same with inputs, as many of them as trajectories. -/
theorem C86_estimated_inputs [Zero K] (P : ParI K X) (R R' : PRom K T B X) (hc : R.rom.continuous = true) (E : DdtI K)
    (hE : R.ddt = some E) (ps : List (Par K)) (qs us : List (Snap K)) (hlen : us.length = qs.length)
    (fitT fitB : Bool) :
    R.fit P ps qs none (some us) fitT fitB = (R', .ok ()) ↔ R.Calibrated R' fitT fitB qs ∧ qs ≠ [] ∧
      ∃ es xs, Forall₂ (fun q e => R'.rom.encode1 q = .ok e) qs es ∧
        Forall₂ (fun (x : Snap K × Snap K) y => E.estimateWith x.1 x.2 = .ok y) (zip es us) xs ∧
        P.Fitted R.model R'.model ps true
          ⟨xs.map (fun x => x.1), xs.map (fun x => x.2.1), some (xs.map fun x => x.2.2)⟩ := by
  rw [pfit_ok, pcheck_ok]
  simp only [C69_estimated_inputs (FRom.mk R.rom (some E) (noModel (K := K))) _ hc E rfl _ _ hlen, FRom.Calibrated,
    PRom.Calibrated, hE, Option.isSome_some, implies_true, true_and, Option.isNone_some, Bool.false_eq_true,
    false_implies]
  constructor
  · rintro ⟨⟨a, b, c⟩, ⟨⟨h2, h3⟩, h5, es, xs, h6, h7, h8, h9, h4⟩, h10, h11⟩
    simp only at h4 h8 h9
    subst h4 h8 h9
    refine ⟨⟨h10, h3⟩, h5, es, xs, h6, h7, ?_⟩
    rw [← hc, ← h3.2.1]
    exact h11
  · rintro ⟨⟨h10, h3⟩, h5, es, xs, h6, h7, h11⟩
    refine ⟨⟨xs.map (fun x => x.1), xs.map (fun x => x.2.1), some (xs.map fun x => x.2.2)⟩,
      ⟨⟨h10, h3⟩, h5, es, xs, h6, h7, rfl, rfl, rfl⟩, h10, ?_⟩
    rw [h3.2.1, hc]
    exact h11

/-! ### C86: optimality -/

/-- The processed training data have `r` rows of states and `m` rows of inputs (zero without inputs); the flag of the
model for inputs is right and the known operators are defined at the training parameters. -/
structure PTrainArgs [Semiring K] (lib : ItpLib K) (M : PModel K S) (ps : List (Par K)) (states : List (Snap K))
    (inputs : Option (List (Snap K))) (r m : Nat) : Prop where
  ps_ne : ps ≠ []
  slots_ne : M.slots ≠ []
  r_pos : 0 < r
  height : ∀ Y ∈ states, Y.nrows = r
  input_height : M.hasInputs = true → ∀ us ∈ inputs, ∀ U ∈ us, U.nrows = m
  no_inputs : M.hasInputs = false → m = 0
  flag : ∀ o ∈ M.ops, o.kind.hasInputs = true → M.hasInputs = true
  known : ∀ s ∈ M.slots, s.infer = false → ∀ mu ∈ ps, ∃ op, s.op.EvalsTo lib mu r m op

theorem firstCols_nrows [Zero K] (k : Nat) (U : Snap K) : (U.firstCols k).nrows = U.nrows := by
  cases U with
  | vec xs => simp [Snap.firstCols, Snap.nrows, Snap.toArg, atleast2d]
  | mat l rows => simp [Snap.firstCols, Snap.nrows, Snap.toArg, atleast2d]

theorem trainInputs_nrows [Zero K] {c : Bool} {states : List (Snap K)} {us us' : Option (List (Snap K))}
    (h : TrainInputs c states us us') (m : Nat) (hm : ∀ vs ∈ us, ∀ U ∈ vs, U.nrows = m) :
    ∀ ws ∈ us', ∀ U ∈ ws, U.nrows = m := by
  cases c with
  | true => rw [h.1 rfl]; exact hm
  | false =>
    obtain ⟨h1, h2⟩ := h.2 rfl
    intro ws hws W hW
    cases us with
    | none => rw [h1 rfl] at hws; cases hws
    | some vs =>
      obtain ⟨ws', rfl, h3⟩ := h2 vs rfl
      cases hws
      obtain ⟨x, hx, k, rows, -, rfl⟩ := forall₂_mem_right h3 hW
      rw [firstCols_nrows]
      exact hm vs rfl _ (of_mem_zip hx).1

theorem PTrainArgs.fitArgs [Field K] {lib : ItpLib K} {M : PModel K S} {ps : List (Par K)} {d : TrainData K}
    {c : Bool} {us' : Option (List (Snap K))} {r m : Nat} (h : PTrainArgs lib M ps d.states d.inputs r m)
    (hu : TrainInputs c d.states d.inputs us') :
    PFitArgs lib M ps (d.states.map Snap.toArg) (d.lhs.map Snap.toArg) (us'.map fun us => us.map Snap.toArg) r m where
  ps_ne := h.ps_ne
  slots_ne := h.slots_ne
  states_wf a ha := by obtain ⟨Y, -, rfl⟩ := mem_map.mp ha; exact toArg_WF Y
  lhs_wf a ha := by obtain ⟨Y, -, rfl⟩ := mem_map.mp ha; exact toArg_WF Y
  inputs_wf us hus a ha := by
    obtain ⟨vs, -, rfl⟩ := Option.map_eq_some_iff.mp hus
    obtain ⟨Y, -, rfl⟩ := mem_map.mp ha
    exact toArg_WF Y
  r_pos := h.r_pos
  height a ha := by obtain ⟨Y, hY, rfl⟩ := mem_map.mp ha; exact h.height Y hY
  input_height hi us hus a ha := by
    obtain ⟨vs, hvs, rfl⟩ := Option.map_eq_some_iff.mp hus
    obtain ⟨Y, hY, rfl⟩ := mem_map.mp ha
    exact trainInputs_nrows hu m (h.input_height hi) vs hvs Y hY
  no_inputs := h.no_inputs
  flag := h.flag
  known := h.known

theorem trainSamples_snaps [Zero K] (hasIn : Bool) (ps : List (Par K)) (states : List (Snap K))
    (us : Option (List (Snap K))) :
    trainSamples hasIn ps (states.map Snap.toArg) (us.map fun us => us.map Snap.toArg)
      = parSamples hasIn ps states us := by
  rw [trainSamples, parSamples, trainData]
  congr 1
  cases hasIn with
  | false =>
    simp only [Bool.false_eq_true, if_false, zipWith_map_right]
    rfl
  | true =>
    simp only [if_true]
    have : ((us.map fun us => us.map Snap.toArg).getD []) = (us.getD []).map Snap.toArg := by cases us <;> rfl
    rw [this, zip_map, zipWith_map_right]
    rfl

theorem pfit_data [Field K] [LinearOrder K] (lib : ItpLib K) (I : SolverI K S) (R R' R1 : PRom K T B (PModel K S))
    (ps : List (Par K)) (qs : List (Snap K)) (lhs us : Option (List (Snap K))) (fitT fitB : Bool) (d : TrainData K)
    (hp : R.process qs lhs us fitT fitB = (R1, .ok d)) (r m : Nat)
    (hA : PTrainArgs lib R.model ps d.states d.inputs r m)
    (hfit : R.fit (pModelI lib I) ps qs lhs us fitT fitB = (R', .ok ())) :
    R'.rom = R1.rom ∧ ∃ us', TrainInputs R'.rom.continuous d.states d.inputs us' ∧
      PFitArgs lib R.model ps (d.states.map Snap.toArg) (d.lhs.map Snap.toArg)
        (us'.map fun us => us.map Snap.toArg) r m ∧
      R.model.fit lib I ps (d.states.map Snap.toArg) (d.lhs.map Snap.toArg) (us'.map fun us => us.map Snap.toArg)
        = (R'.model, .ok ()) := by
  obtain ⟨-, d', h1, h2, us', h3, h4⟩ := (pfit_ok _ R R' ps qs lhs us fitT fitB).1 hfit
  obtain ⟨-, -, p3⟩ := (pprocess_eq R R1 qs lhs us fitT fitB d).1 hp
  rw [p3] at h1
  simp only [Prod.mk.injEq, FRom.mk.injEq, Except.ok.injEq] at h1
  obtain ⟨⟨e1, -, -⟩, rfl⟩ := h1
  exact ⟨e1.symm, us', h3, hA.fitArgs h3, h4⟩

theorem flatMap_toArg [Zero K] (l : List (Snap K)) :
    ((l.map Snap.toArg).flatMap fun L => (atleast2d L).2) = l.flatMap Snap.columnList := by
  rw [flatMap_map]; rfl

section

variable [Field K] [LinearOrder K] [IsStrictOrderedRing K]

/-- **C86** (`L2Solver`). After a successful `fit` no other entries of the operators to infer give a smaller
`Σ ‖lhs − model(mu, q, u)‖² + λ² ‖O‖²`, the sum taken over the columns of all encoded trajectories, each with its
parameter. -/
theorem C86_l2 (lib : ItpLib K) (svd : Mat K → Except Err (Svd K)) (hsvd : ∀ D u, svd D = .ok u → IsSVD D u)
    (R R' R1 : PRom K T B (PModel K (L2 K K))) (hint : R.model.intrusive = false) (ps : List (Par K))
    (qs : List (Snap K)) (lhs us : Option (List (Snap K))) (fitT fitB : Bool) (d : TrainData K)
    (hp : R.process qs lhs us fitT fitB = (R1, .ok d)) (r m : Nat)
    (hA : PTrainArgs lib R.model ps d.states d.inputs r m)
    (hL : ∀ s ∈ R.model.slots, s.infer = true → s.op.Learnable lib ps)
    (hfit : R.fit (pModelI lib (l2Solver svd)) ps qs lhs us fitT fitB = (R', .ok ())) :
    R'.rom = R1.rom ∧ ∃ us', TrainInputs R'.rom.continuous d.states d.inputs us' ∧
      ∃ (s : L2 K K) (lam : K) (y : Nat → List K), R.model.solver = some s ∧ s.reg = some lam ∧
        PFitOptimal lib R'.model ps (parSamples R.model.hasInputs ps d.states us') (d.lhs.flatMap Snap.columnList) r m
          (fun O => lam ^ 2 * (O.map sumSq).sum) y := by
  obtain ⟨h1, us', h2, h3, h4⟩ := pfit_data lib _ R R' R1 ps qs lhs us fitT fitB d hp r m hA hfit
  have h := C85_l2 lib svd hsvd R.model R'.model hint ps _ _ _ r m h3 hL h4
  rw [trainSamples_snaps, flatMap_toArg] at h
  exact ⟨h1, us', h2, h⟩

/-- **C86** (`PlainSolver`). -/
theorem C86_plain (lib : ItpLib K) (lstsq : Mat K → Mat K → Except Err (Mat K))
    (hls : ∀ A B X, lstsq A B = .ok X → IsLstsq A B X) (R R' R1 : PRom K T B (PModel K (Plain K)))
    (hint : R.model.intrusive = false) (ps : List (Par K))
    (qs : List (Snap K)) (lhs us : Option (List (Snap K))) (fitT fitB : Bool) (d : TrainData K)
    (hp : R.process qs lhs us fitT fitB = (R1, .ok d)) (r m : Nat)
    (hA : PTrainArgs lib R.model ps d.states d.inputs r m)
    (hL : ∀ s ∈ R.model.slots, s.infer = true → s.op.Learnable lib ps)
    (hfit : R.fit (pModelI lib (plainSolver lstsq)) ps qs lhs us fitT fitB = (R', .ok ())) :
    R'.rom = R1.rom ∧ ∃ us', TrainInputs R'.rom.continuous d.states d.inputs us' ∧
      ∃ y : Nat → List K, PFitOptimal lib R'.model ps (parSamples R.model.hasInputs ps d.states us')
        (d.lhs.flatMap Snap.columnList) r m (fun _ => 0) y := by
  obtain ⟨h1, us', h2, h3, h4⟩ := pfit_data lib _ R R' R1 ps qs lhs us fitT fitB d hp r m hA hfit
  have h := C85_plain lib lstsq hls R.model R'.model hint ps _ _ _ r m h3 hL h4
  rw [trainSamples_snaps, flatMap_toArg] at h
  exact ⟨h1, us', h2, h⟩

/-- **C86** (`TikhonovSolver`). -/
theorem C86_tikhonov (lib : ItpLib K) (lstsq posSolve : Mat K → Mat K → Except Err (Mat K))
    (hls : ∀ A B X, lstsq A B = .ok X → IsLstsq A B X)
    (hps : ∀ A B X, A.nrows = B.nrows → A.nrows = A.ncols → posSolve A B = .ok X → IsSolution A B X)
    (R R' R1 : PRom K T B (PModel K (Tik (Mat K) K)))
    (hint : R.model.intrusive = false) (hreg : ∀ s ∈ R.model.solver, ∀ G ∈ s.reg, G.WF) (ps : List (Par K))
    (qs : List (Snap K)) (lhs us : Option (List (Snap K))) (fitT fitB : Bool) (d : TrainData K)
    (hp : R.process qs lhs us fitT fitB = (R1, .ok d)) (r m : Nat)
    (hA : PTrainArgs lib R.model ps d.states d.inputs r m)
    (hL : ∀ s ∈ R.model.slots, s.infer = true → s.op.Learnable lib ps)
    (hfit : R.fit (pModelI lib (tikSolver lstsq posSolve)) ps qs lhs us fitT fitB = (R', .ok ())) :
    R'.rom = R1.rom ∧ ∃ us', TrainInputs R'.rom.continuous d.states d.inputs us' ∧
      ∃ (s : Tik (Mat K) K) (G : Mat K) (y : Nat → List K), R.model.solver = some s ∧ s.reg = some G ∧
        PFitOptimal lib R'.model ps (parSamples R.model.hasInputs ps d.states us') (d.lhs.flatMap Snap.columnList) r m
          (fun O => (O.map fun o => sumSq (matVec G.rows o)).sum) y := by
  obtain ⟨h1, us', h2, h3, h4⟩ := pfit_data lib _ R R' R1 ps qs lhs us fitT fitB d hp r m hA hfit
  have h := C85_tikhonov lib lstsq posSolve hls hps R.model R'.model hint hreg ps _ _ _ r m h3 hL h4
  rw [trainSamples_snaps, flatMap_toArg] at h
  exact ⟨h1, us', h2, h⟩

end

/-! ### C86: reproducing the training data -/

/-- The `j`-th input of the `i`-th trajectory, none for models without inputs. -/
def snapInput [Zero K] (hasIn : Bool) (us : Option (List (Snap K))) (i j : Nat) : Option (List K) :=
  if hasIn then some ((((us.getD [])[i]?).getD (.vec [])).columnList.getD j []) else none

/-- The inputs of the `i`-th trajectory as an argument of `predict`, none for models without inputs. -/
def snapPred [Zero K] (hasIn : Bool) (us : Option (List (Snap K))) (i : Nat) : PredInput K :=
  if hasIn then .arr ((((us.getD [])[i]?).getD (.vec [])).toArg) else .none

/-- Encoded trajectories `es` of a fully discrete model with states of dimension `r`, with inputs of dimension `m` for
all states but the last one; the flag of the model for inputs is right and the known operators are defined at the
training parameters. -/
structure PTrajArgs [Semiring K] (lib : ItpLib K) (M : PModel K S) (ps : List (Par K)) (es : List (Snap K))
    (inputs : Option (List (Snap K))) (r m : Nat) : Prop where
  ps_ne : ps ≠ []
  slots_ne : M.slots ≠ []
  r_pos : 0 < r
  count : es.length = ps.length
  wf : ∀ e ∈ es, e.WF
  height : ∀ e ∈ es, e.nrows = r
  some_inputs : M.hasInputs = true → ∃ us, inputs = some us ∧ (∀ U ∈ us, U.WF ∧ U.nrows = m) ∧
    Forall₂ (fun e U => e.ncolumns ≤ U.ncolumns + 1) es us
  no_inputs : M.hasInputs = false → m = 0
  flag : M.hasInputs = M.ops.any (·.kind.hasInputs)
  known : ∀ s ∈ M.slots, s.infer = false → ∀ mu ∈ ps, ∃ op, s.op.EvalsTo lib mu r m op

/-- A trajectory whose steps are those of the model at `mu` is what `predict` returns. -/
theorem predict_of_steps [Field K] (lib : ItpLib K) (M : PModel K S) (mu : Par K) (r m : Nat) (hr : 0 < r)
    (hne : M.slots ≠ []) (h : ∀ o ∈ M.ops, ∃ op, o.EvalsTo lib mu r m op) (cols : List (List K))
    (hcols : ∀ c ∈ cols, c.length = r) (h0 : cols ≠ []) (inputs : PredInput K)
    (hin : M.ops.any (·.kind.hasInputs) = true → inputs.Enough (some m) cols.length)
    (hstep : ∀ j, j + 1 < cols.length →
      (M.rhs lib mu (cols.getD j []) (inputs.at (M.ops.any (·.kind.hasInputs)) j)).2 = .ok (cols.getD (j + 1) [])) :
    (M.predict lib mu (cols.getD 0 []) cols.length inputs).2 = .ok cols := by
  obtain ⟨slots', ops, h1, h2, -⟩ := evalOps_ok lib mu r m M.slots
    (fun s hs => h s.op (mem_map.mpr ⟨s, hs, rfl⟩))
  have h2' : Forall₂ (fun o op => POp.EvalsTo lib o mu r m op) M.ops ops := by
    rw [PModel.ops, forall₂_map_left_iff]; exact h2
  have hcal : ∀ op ∈ ops, op.Cal r m := by
    intro op hop
    obtain ⟨o, -, ho⟩ := forall₂_mem_right h2' hop
    exact ho.2.2
  have hne' : ops ≠ [] := by
    rintro rfl
    exact hne (forall₂_nil_right_iff.mp h2)
  have hany : ops.any (·.kind.hasInputs) = M.ops.any (·.kind.hasInputs) := by
    clear h1 h2 hcal hne' hin hstep
    generalize M.ops = os at h2'
    induction h2' with
    | nil => rfl
    | cons ha _ ih => rw [any_cons, any_cons, ha.2.1, ih]
  obtain ⟨N, hN, n1, n2, -, n4, n5⟩ := frozen_dims (S := S) ops r m hr hne' hcal
  have hev : (M.evaluate lib mu).2 = .ok N := by
    simp only [PModel.evaluate, h1, hN]
  obtain ⟨c1, -⟩ := C58_methods lib M mu
  obtain ⟨c1, -, c3⟩ := c1 N hev
  rw [c3, C15_predict_iff]
  have hlen : 0 < cols.length := length_pos_iff.mpr h0
  have hq0 : (cols.getD 0 []).length = r := by
    rw [getD_eq_getElem _ _ hlen]
    exact hcols _ (getElem_mem hlen)
  refine ⟨?_, by rw [hq0, n2], by omega, ?_, by rw [Int.toNat_natCast], rfl, ?_⟩
  · rw [Model.checkTrained, n2, n5, n1, if_neg (by simp), if_neg (by simp), if_neg]
    rw [any_eq_true]
    rintro ⟨o, ho, hn⟩
    obtain ⟨E, hE, -⟩ := hcal o ho
    rw [hE] at hn
    cases hn
  · intro hi
    rw [n4, hany] at hi
    rw [n5, hany, if_pos hi, Int.toNat_natCast]
    exact hin hi
  · intro j hj
    rw [Int.toNat_natCast] at hj
    rw [← c1, n4, hany]
    exact hstep j hj

/-- The samples of encoded trajectories without inputs, with their left-hand sides. -/
theorem pairs_plain [Zero K] (ps : List (Par K)) (es ys zs : List (Snap K)) (hwf : ∀ e ∈ es, e.WF)
    (hlen : es.length = ps.length) (hy : Forall₂ (fun e y => e.initCols = .ok y) es ys)
    (hz : Forall₂ (fun e z => e.tailCols = .ok z) es zs) (us : Option (List (Snap K))) :
    zip (parSamples false ps ys us) (zs.flatMap Snap.columnList) =
      (zip ps es).flatMap fun x => (range (x.2.ncolumns - 1)).map fun j =>
        ((x.1, x.2.columnList.getD j [], none), x.2.columnList.getD (j + 1) []) := by
  induction hy generalizing ps zs with
  | nil => cases hz; cases ps <;> rfl
  | @cons e y es ys h1 _ ih =>
    cases hz with
    | @cons _ z _ zs h2 h3 =>
    cases ps with
    | nil => simp at hlen
    | cons mu ps =>
      have ih := ih ps zs (fun e he => hwf e (mem_cons_of_mem _ he)) (by simpa using hlen) h3
      have hw := hwf e mem_cons_self
      have a1 := (initCols_ok hw h1).2
      have a2 := (tailCols_ok hw h2).2
      simp only [parSamples, Bool.false_eq_true, if_false] at ih ⊢
      have e1 : dataSamples (zipWith (fun mu Q => (mu, Q.columnList, (none : Option (List (List K))))) (mu :: ps) (y :: ys))
          = (y.columnList.map fun q => (mu, q, none)) ++
            dataSamples (zipWith (fun mu Q => (mu, Q.columnList, (none : Option (List (List K))))) ps ys) := rfl
      rw [e1, flatMap_cons, zip_append (by rw [length_map, a1, a2]; simp), ih, zip_cons_cons, flatMap_cons]
      congr 1
      rw [a1, a2]
      apply ext_getElem
      · simp [columnList_length]
      · intro j hj1 hj2
        simp only [length_map, length_range] at hj2
        have hl := columnList_length e
        simp only [getElem_zip, getElem_map, getElem_dropLast, getElem_tail, getElem_range]
        rw [getD_eq_getElem _ _ (by omega), getD_eq_getElem _ _ (by omega)]

/-- The samples of encoded trajectories with inputs, with their left-hand sides. -/
theorem pairs_inputs [Zero K] (ps : List (Par K)) (es ys zs us ws : List (Snap K)) (hwf : ∀ e ∈ es, e.WF)
    (hlen : es.length = ps.length) (hy : Forall₂ (fun e y => e.initCols = .ok y) es ys)
    (hz : Forall₂ (fun e z => e.tailCols = .ok z) es zs) (huw : ∀ U ∈ us, U.WF)
    (hu : Forall₂ (fun e U => e.ncolumns ≤ U.ncolumns + 1) es us)
    (hw : Forall₂ (fun x w => w.columnList = x.2.columnList.take (x.1.ncolumns - 1)) (zip es us) ws) :
    zip (parSamples true ps ys (some ws)) (zs.flatMap Snap.columnList) =
      (zip ps (zip es us)).flatMap fun x => (range (x.2.1.ncolumns - 1)).map fun j =>
        ((x.1, x.2.1.columnList.getD j [], some (x.2.2.columnList.getD j [])), x.2.1.columnList.getD (j + 1) []) := by
  induction hy generalizing ps zs us ws with
  | nil => cases hz; cases ps <;> rfl
  | @cons e y es ys h1 _ ih =>
    cases hz with
    | @cons _ z _ zs h2 h3 =>
    cases hu with
    | @cons _ U _ us h4 h5 =>
    rw [zip_cons_cons] at hw
    cases hw with
    | @cons _ w _ ws h6 h7 =>
    cases ps with
    | nil => simp at hlen
    | cons mu ps =>
      have ih := ih ps zs us ws (fun e he => hwf e (mem_cons_of_mem _ he)) (by simpa using hlen) h3
        (fun U hU => huw U (mem_cons_of_mem _ hU)) h5 h7
      have hw := hwf e mem_cons_self
      have a1 := (initCols_ok hw h1).2
      have a2 := (tailCols_ok hw h2).2
      simp only at h6
      have hle := columnList_length e
      have hlU := columnList_length U
      simp only [parSamples, if_true, Option.getD_some] at ih ⊢
      have e1 : dataSamples (zipWith (fun mu x => (mu, x.1.columnList, some x.2.columnList)) (mu :: ps) (zip (y :: ys) (w :: ws)))
          = ((zip y.columnList w.columnList).map fun p => (mu, p.1, some p.2)) ++
            dataSamples (zipWith (fun mu x => (mu, x.1.columnList, some x.2.columnList)) ps (zip ys ws)) := rfl
      rw [e1, flatMap_cons, zip_append (by simp [a1, a2, h6]; omega), ih, zip_cons_cons, zip_cons_cons, flatMap_cons]
      congr 1
      rw [a1, a2, h6]
      apply ext_getElem
      · simp; omega
      · intro j hj1 hj2
        simp only [length_map, length_range] at hj2
        simp only [getElem_zip, getElem_map, getElem_dropLast, getElem_tail, getElem_range, getElem_take]
        rw [getD_eq_getElem _ _ (by omega), getD_eq_getElem _ _ (by omega), getD_eq_getElem _ _ (by omega)]

theorem cut_columns [Zero K] (es ys us ws : List (Snap K)) (hwf : ∀ e ∈ es, e.WF)
    (hy : Forall₂ (fun e y => e.initCols = .ok y) es ys) (huw : ∀ U ∈ us, U.WF) (hlen : us.length = es.length)
    (hw : Forall₂ (fun x w => ∃ k rows, x.2 = Snap.mat k rows ∧ w = x.1.firstCols k)
      (zip (zipWith (fun Y U => U.firstCols Y.ncolumns) ys us) ys) ws) :
    Forall₂ (fun x w => w.columnList = x.2.columnList.take (x.1.ncolumns - 1)) (zip es us) ws := by
  induction hy generalizing us ws with
  | nil => cases us with
    | nil => cases hw; exact .nil
    | cons U us => simp at hlen
  | @cons e y es ys h1 _ ih =>
    cases us with
    | nil => simp at hlen
    | cons U us =>
      simp only [zipWith_cons_cons, zip_cons_cons] at hw ⊢
      cases hw with
      | @cons _ w _ ws h2 h3 =>
      refine .cons ?_ (ih us ws (fun e he => hwf e (mem_cons_of_mem _ he)) (fun U hU => huw U (mem_cons_of_mem _ hU))
        (by simpa using hlen) h3)
      obtain ⟨k, rows, h4, rfl⟩ := h2
      simp only at h4
      subst h4
      have hU := huw U mem_cons_self
      have hc := columnList_length e
      have hy := columnList_length (Snap.mat k rows)
      rw [(initCols_ok (hwf e mem_cons_self) h1).2, length_dropLast, hc] at hy
      rw [(firstCols_columns _ _ (firstCols_columns _ _ hU).1).2, (firstCols_columns _ _ hU).2, take_take]
      simp only [Snap.ncolumns] at hy ⊢
      rw [min_self, ← hy]

theorem mem_zip_getElem? {α β : Type} {as : List α} {bs : List β} {a : α} {b : β} :
    (a, b) ∈ zip as bs ↔ ∃ i : Nat, as[i]? = some a ∧ bs[i]? = some b := by
  rw [mem_iff_getElem?]
  simp only [getElem?_zip_eq_some]

/-- The samples `(mu_i, e_j, u_j)` and the left-hand sides `e_{j+1}` of the encoded trajectories. -/
theorem pairs_mem [Field K] (lib : ItpLib K) (M : PModel K S) (ps : List (Par K)) (es : List (Snap K))
    (us us' : Option (List (Snap K))) (r m : Nat) (hA : PTrajArgs lib M ps es us r m) (d : TrainData K)
    (hy : Forall₂ (fun e y => e.initCols = .ok y) es d.states) (hz : Forall₂ (fun e z => e.tailCols = .ok z) es d.lhs)
    (hin : d.inputs = us.map (fun us => zipWith (fun Y U => U.firstCols Y.ncolumns) d.states us))
    (hu : TrainInputs false d.states d.inputs us') (x : Par K × List K × Option (List K)) (l : List K) :
    (x, l) ∈ zip (parSamples M.hasInputs ps d.states us') (d.lhs.flatMap Snap.columnList) ↔
      ∃ (i : Nat) (mu : Par K) (e : Snap K) (j : Nat), ps[i]? = some mu ∧ es[i]? = some e ∧ j + 1 < e.ncolumns ∧
        x = (mu, e.columnList.getD j [], snapInput M.hasInputs us i j) ∧ l = e.columnList.getD (j + 1) [] := by
  cases hi : M.hasInputs with
  | false =>
    rw [pairs_plain ps es _ _ hA.wf hA.count hy hz]
    simp only [mem_flatMap, mem_map, mem_range, Prod.exists, mem_zip_getElem?, snapInput, Bool.false_eq_true, if_false,
      Prod.mk.injEq]
    constructor
    · rintro ⟨mu, e, ⟨i, h1, h2⟩, j, hj, h3, h4⟩
      exact ⟨i, mu, e, j, h1, h2, by omega, h3.symm, h4.symm⟩
    · rintro ⟨i, mu, e, j, h1, h2, hj, h3, h4⟩
      exact ⟨mu, e, ⟨i, h1, h2⟩, j, by omega, h3.symm, h4.symm⟩
  | true =>
    obtain ⟨vs, rfl, hv1, hv2⟩ := hA.some_inputs hi
    obtain ⟨ws, rfl, hws⟩ := (hu.2 rfl).2 _ hin
    have hc := cut_columns es d.states vs ws hA.wf hy (fun U hU => (hv1 U hU).1) hv2.length_eq.symm hws
    rw [pairs_inputs ps es _ _ vs ws hA.wf hA.count hy hz (fun U hU => (hv1 U hU).1) hv2 hc]
    simp only [mem_flatMap, mem_map, mem_range, Prod.exists, mem_zip_getElem?, snapInput, if_true, Option.getD_some,
      Prod.mk.injEq, getElem?_zip_eq_some]
    constructor
    · rintro ⟨mu, e, U, ⟨i, h1, h2, h2'⟩, j, hj, h3, h4⟩
      refine ⟨i, mu, e, j, h1, h2, by omega, ?_, h4.symm⟩
      rw [← h3, h2']
      rfl
    · rintro ⟨i, mu, e, j, h1, h2, hj, h3, h4⟩
      obtain ⟨U, hU⟩ : ∃ U, vs[i]? = some U := by
        have h5 := (List.getElem?_eq_some_iff.mp h2).1
        rw [hv2.length_eq] at h5
        exact ⟨_, getElem?_eq_getElem h5⟩
      refine ⟨mu, e, U, ⟨i, h1, h2, hU⟩, j, by omega, ?_, h4.symm⟩
      rw [h3, hU]
      rfl

theorem columnsSnap_columnList [Zero K] (k : Nat) (rows : List (List K)) (h : (Snap.mat k rows).WF) :
    columnsSnap rows.length (Snap.mat k rows).columnList = .mat k rows := by
  simp only [columnsSnap, Snap.columnList, Snap.toArg, atleast2d]
  congr 1
  · simp [transpose]
  · apply ext_getElem
    · simp [transpose]
    · intro i h1 h2
      have hw : rows[i].length = k := h _ (getElem_mem h2)
      apply ext_getElem
      · simp [transpose, hw]
      · intro j h3 h4
        simp only [transpose, getElem_map, getElem_range, map_map, Function.comp_apply]
        rw [getD_eq_getElem _ _ (by simpa using h2), getElem_map, getD_eq_getElem _ _ h4]

section

variable [Field K] [LinearOrder K] [IsStrictOrderedRing K]

/-- **C86.** Trained with a `PlainSolver` on trajectories that some entries of the operators to infer reproduce exactly,
the reduced-order model of a fully discrete model predicts, from the initial state of a training trajectory at its
parameter and with its inputs, the projection of this trajectory. -/
theorem C86_reproduces (lib : ItpLib K) (lstsq : Mat K → Mat K → Except Err (Mat K))
    (hls : ∀ A B X, lstsq A B = .ok X → IsLstsq A B X) (R R' : PRom K T B (PModel K (Plain K)))
    (hc : R.rom.continuous = false) (hint : R.model.intrusive = false) (ps : List (Par K)) (qs es : List (Snap K))
    (us : Option (List (Snap K))) (fitT fitB : Bool)
    (hfit : R.fit (pModelI lib (plainSolver lstsq)) ps qs none us fitT fitB = (R', .ok ()))
    (hes : Forall₂ (fun q e => R'.rom.encode1 q = .ok e) qs es) (r m : Nat)
    (hA : PTrajArgs lib R.model ps es us r m) (hL : ∀ s ∈ R.model.slots, s.infer = true → s.op.Learnable lib ps)
    (slots' : List (PSlot K)) (hs : Forall₂ (PSlot.Reset lib ps r m) R'.model.slots slots')
    (hgen : ∀ (i : Nat) mu e, ps[i]? = some mu → es[i]? = some e → ∀ j, j + 1 < e.ncolumns →
      (PModel.rhs lib { R'.model with slots := slots' } mu (e.columnList.getD j [])
        (snapInput R.model.hasInputs us i j)).2 = .ok (e.columnList.getD (j + 1) []))
    (i : Nat) (mu : Par K) (q e : Snap K) (hmu : ps[i]? = some mu) (hq : qs[i]? = some q) (he : es[i]? = some e)
    (hne : 0 < e.ncolumns) (q0 : Snap K) (h0 : R'.rom.encode1 q0 = .ok (.vec (e.columnList.getD 0 []))) :
    R'.predict (pModelI lib (plainSolver lstsq)) mu q0 e.ncolumns (snapPred R.model.hasInputs us i) =
      R'.rom.project q := by
  obtain ⟨-, h2, es', d, h3, h4, h5, h6, us', h7, h8⟩ := (C86_discrete _ R R' hc ps qs us fitT fitB).1 hfit
  obtain rfl : es' = es := right_unique_forall₂' (R := fun q e => R'.rom.encode1 q = .ok e)
    (fun a b c h1 h2 => Except.ok.inj (h1.symm.trans h2)) h3 hes
  have hTA : PTrainArgs lib R.model ps d.states d.inputs r m := by
    refine ⟨hA.ps_ne, hA.slots_ne, hA.r_pos, ?_, ?_, hA.no_inputs, ?_, hA.known⟩
    · intro Y hY
      obtain ⟨e, he, heY⟩ := forall₂_mem_right h4 hY
      have := hA.height e he
      cases e with
      | vec xs => cases heY
      | mat k rows =>
        cases heY
        simpa [Snap.nrows, Snap.toArg, atleast2d] using this
    · intro hi ws hws W hW
      obtain ⟨vs, rfl, hv1, -⟩ := hA.some_inputs hi
      rw [h6] at hws
      cases hws
      have hW : W ∈ zipWith (fun Y U => Snap.firstCols Y.ncolumns U) d.states vs := hW
      rw [← map_uncurry_zip_eq_zipWith] at hW
      obtain ⟨⟨Y, U⟩, hYU, rfl⟩ := mem_map.mp hW
      rw [Function.uncurry_apply_pair, firstCols_nrows]
      exact (hv1 U (of_mem_zip hYU).2).2
    · intro o ho h
      rw [hA.flag, any_eq_true]
      exact ⟨o, ho, h⟩
  have hFA := hTA.fitArgs h7
  obtain ⟨y, hopt⟩ := C85_plain lib lstsq hls R.model R'.model hint ps _ _ _ r m hFA hL h8
  obtain ⟨u1, u2, -⟩ := C58_fit_usable lib _ R.model R'.model hint ps _ _ _ r m hFA hL
    (plainSolver_shaped lstsq (fun A B X h => ⟨(hls A B X h).wf, (hls A B X h).rows, (hls A B X h).cols⟩) r) h8
  rw [trainSamples_snaps, flatMap_toArg] at hopt
  have hrec := C85_recovers lib R'.model ps _ _ r m y hopt slots' hs (by
    intro J x l hx hl
    obtain ⟨i, mu, e, j, a1, a2, a3, rfl, rfl⟩ :=
      (pairs_mem lib R.model ps es' us us' r m hA d h4 h5 h6 h7 x l).1 (mem_zip_getElem?.2 ⟨J, hx, hl⟩)
    exact hgen i mu e a1 a2 j a3)
  -- the steps of the trained model
  have hstep : ∀ j, j + 1 < e.ncolumns → (R'.model.rhs lib mu (e.columnList.getD j [])
      (snapInput R.model.hasInputs us i j)).2 = .ok (e.columnList.getD (j + 1) []) := by
    intro j hj
    obtain ⟨J, hx, hl⟩ := mem_zip_getElem?.1
      ((pairs_mem lib R.model ps es' us us' r m hA d h4 h5 h6 h7 _ _).2 ⟨i, mu, e, j, hmu, he, hj, rfl, rfl⟩)
    exact hrec J _ _ hx hl
  have hany : R'.model.ops.any (·.kind.hasInputs) = R.model.hasInputs := by
    rw [hA.flag]
    clear hstep hrec u2 hFA hTA hopt
    generalize R.model.ops = os at u1
    generalize R'.model.ops = os' at u1
    induction u1 with
    | nil => rfl
    | cons ha _ ih => rw [any_cons, any_cons, ha, ih]
  have hslots : R'.model.slots ≠ [] := by
    intro h0
    rw [PModel.ops, PModel.ops, h0] at u1
    exact hA.slots_ne (map_eq_nil_iff.mp (forall₂_nil_right_iff.mp u1))
  have hmem : e ∈ es' := mem_of_getElem? he
  obtain ⟨k, rows, rfl⟩ : ∃ k rows, e = .mat k rows := by
    obtain ⟨z, -, hz⟩ := forall₂_mem_right h4.flip hmem
    cases e with
    | vec xs => cases hz
    | mat k rows => exact ⟨k, rows, rfl⟩
  have hr : rows.length = r := hA.height _ hmem
  have hcl := columnList_length (Snap.mat k rows)
  have hcols : ∀ c ∈ (Snap.mat k rows).columnList, c.length = r := by
    intro c hc
    rw [← hr]
    exact transpose_rows k rows c hc
  have hp := predict_of_steps lib R'.model mu r m hA.r_pos hslots (u2 mu (mem_of_getElem? hmu)) _ hcols
    (by rw [← length_pos_iff, hcl]; exact hne) (snapPred R.model.hasInputs us i) (by
      intro hi
      rw [hany] at hi
      obtain ⟨vs, rfl, hv1, hv2⟩ := hA.some_inputs hi
      obtain ⟨U, hU⟩ : ∃ U, vs[i]? = some U := by
        have h5 := (List.getElem?_eq_some_iff.mp he).1
        rw [hv2.length_eq] at h5
        exact ⟨_, getElem?_eq_getElem h5⟩
      simp only [snapPred, hi, if_true, Option.getD_some, hU, PredInput.Enough]
      refine ⟨congrArg some (hv1 U (mem_of_getElem? hU)).2, ?_⟩
      have := forall₂_getElem? hv2 (j := i) he hU
      have h9 := columnList_length U
      rw [Snap.columnList] at h9
      rw [h9, hcl]
      exact this) (by
      intro j hj
      rw [hcl] at hj
      have := hstep j hj
      rw [hany]
      have e1 : (snapPred R.model.hasInputs us i).at R.model.hasInputs j = snapInput R.model.hasInputs us i j := by
        cases R.model.hasInputs <;> rfl
      rw [e1]
      exact this)
  rw [hcl] at hp
  have hl0 : ((Snap.mat k rows).columnList.getD 0 []).length = rows.length := by
    rw [getD_eq_getElem _ _ (by rw [hcl]; exact hne), hr]
    exact hcols _ (getElem_mem _)
  have hP : (pModelI lib (plainSolver lstsq)).predictArr R'.model mu (Snap.mat k rows).ncolumns
      (snapPred R.model.hasInputs us i) (.vec ((Snap.mat k rows).columnList.getD 0 [])) = .ok (.mat k rows) := by
    have hp' : ((pModelI lib (plainSolver lstsq)).predict R'.model mu ((Snap.mat k rows).columnList.getD 0 [])
      (Snap.mat k rows).ncolumns (snapPred R.model.hasInputs us i)).2 = .ok (Snap.mat k rows).columnList := hp
    simp only [ParI.predictArr, hp', Except.map, hl0]
    rw [columnsSnap_columnList k rows (hA.wf _ hmem)]
  have hqe : R'.rom.encode1 q = .ok (.mat k rows) := forall₂_getElem? hes (j := i) hq he
  rw [PRom.predict, Rom.predict, Rom.project, h0, hqe]
  simp only [bind, Except.bind]
  rw [hP]

/-- C86: a two-dimensional initial state is refused. -/
theorem C86_initial_state_refused {K T B X : Type} [Field K] [LinearOrder K] (P : ParI K X) (R : PRom K T B X)
    (mu : Par K) (state0 : Snap K) (niters : Int) (inputs : PredInput K) (k : Nat) (rows : List (List K))
    (h : R.rom.encode1 state0 = .ok (.mat k rows)) :
    R.predict P mu state0 niters inputs = .error .dimensionality := by
  simp only [PRom.predict, Rom.predict, h, bind, Except.bind, ParI.predictArr]

end

/-! ### Examples -/

/-- Least squares restricted to one problem. -/
def pRomLs (A B : Mat ℚ) : Except Err (Mat ℚ) :=
  if A = ⟨3, 2, [[1, 1], [5, 5], [1, 4]]⟩ ∧ B = ⟨3, 1, [[2], [10], [5]]⟩ then .ok ⟨2, 1, [[1], [1]]⟩
  else .error .linalg

theorem pRomLs_spec (A B X : Mat ℚ) (h : pRomLs A B = .ok X) : IsLstsq A B X := by
  unfold pRomLs at h
  split at h
  · rename_i hc
    obtain ⟨rfl, rfl⟩ := hc
    injection h with h
    subst h
    refine ⟨by decide, rfl, rfl, ?_⟩
    intro j hj
    obtain rfl : j = 0 := by simp at hj; exact hj
    refine ⟨rfl, fun o' _ => ?_⟩
    have : sumSq (vsub (matVec [[1, 1], [5, 5], [1, 4]] (col [[(1 : ℚ)], [1]] 0)) (col [[2], [10], [5]] 0)) = 0 := by
      decide +kernel
    simp only
    rw [this]
    exact sumSq_nonneg _
  · cases h

/-- A fully discrete model with two variables, of which the basis keeps the first one. -/
def pRomEx : PRom ℚ (Sst ℚ) (LinB ℚ) (PModel ℚ (Plain ℚ)) :=
  ⟨⟨none, none, some (linI, ⟨none, some 2, some 1, some ⟨2, [[1, 0]]⟩, none⟩), false⟩, none, pOptEx⟩

/-- Trajectories of `q ↦ (1 + mu) q + 3` in the first variable. -/
def pRomStates : List (Snap ℚ) := [.mat 3 [[1, 5, 13], [7, 8, 9]], .mat 2 [[1, 8], [0, 1]]]

def pRomTrained : PRom ℚ (Sst ℚ) (LinB ℚ) (PModel ℚ (Plain ℚ)) :=
  (pRomEx.fit (pModelI toyLib (plainSolver pRomLs)) pExPars pRomStates none none false false).1

theorem pRomTrained_fit : pRomEx.fit (pModelI toyLib (plainSolver pRomLs)) pExPars pRomStates none none false false =
    (pRomTrained, .ok ()) := Prod.ext rfl (by decide +kernel)

theorem pRomEx_learnable : ∀ s ∈ pRomEx.model.slots, s.infer = true → s.op.Learnable toyLib pExPars := by
  intro s hs hi
  simp only [pRomEx, pOptEx, mem_cons, not_mem_nil, or_false] at hs
  rcases hs with rfl | rfl
  · exact ⟨by decide, fun mu hmu => ⟨_, rfl, by
      simp only [pExPars, mem_cons, not_mem_nil, or_false] at hmu
      rcases hmu with rfl | rfl <;> rfl⟩⟩
  · simp at hi

theorem pRomEx_known : ∀ s ∈ pRomEx.model.slots, s.infer = false → ∀ mu ∈ pExPars,
    ∃ op, s.op.EvalsTo toyLib mu 1 0 op := by
  intro s hs hi mu _
  simp only [pRomEx, pOptEx, mem_cons, not_mem_nil, or_false] at hs
  rcases hs with rfl | rfl
  · simp at hi
  · exact ⟨⟨.const, some ⟨1, 1, [[3]]⟩⟩, rfl, rfl, _, rfl, ⟨rfl, by decide⟩, rfl, rfl⟩

/-- The hypotheses of `C86_plain` hold. -/
example : ∃ R1 d, pRomEx.process pRomStates none none false false = (R1, .ok d) ∧
    d.states = [.mat 2 [[1, 5]], .mat 1 [[1]]] ∧ d.lhs = [.mat 2 [[5, 13]], .mat 1 [[8]]] ∧
    PTrainArgs toyLib pRomEx.model pExPars d.states d.inputs 1 0 := by
  refine ⟨(pRomEx.process pRomStates none none false false).1,
    ⟨[.mat 2 [[1, 5]], .mat 1 [[1]]], [.mat 2 [[5, 13]], .mat 1 [[8]]], none⟩, Prod.ext rfl (by decide +kernel), rfl, rfl,
    by simp [pExPars], by simp [pRomEx, pOptEx], by decide, ?_, by simp, by simp, ?_, pRomEx_known⟩
  · intro Y hY
    simp only [mem_cons, not_mem_nil, or_false] at hY
    rcases hY with rfl | rfl <;> rfl
  · intro o ho
    simp only [PModel.ops, pRomEx, pOptEx, map_cons, map_nil, mem_cons, not_mem_nil, or_false] at ho
    rcases ho with rfl | rfl <;> simp [POp.kind, OpKind.hasInputs]

/-- The hypotheses of `C86_reproduces` hold: the first trajectory is predicted, from an initial state with the same
encoding. -/
example : pRomTrained.predict (pModelI toyLib (plainSolver pRomLs)) (.scalar 1) (.vec [1, 100]) 3 .none =
    pRomTrained.rom.project (.mat 3 [[1, 5, 13], [7, 8, 9]]) := by
  have hp : pRomEx.process pRomStates none none false false = ((pRomEx.process pRomStates none none false false).1,
      .ok ⟨[.mat 2 [[1, 5]], .mat 1 [[1]]], [.mat 2 [[5, 13]], .mat 1 [[8]]], none⟩) := Prod.ext rfl (by decide +kernel)
  have hflag : ∀ o ∈ pRomEx.model.ops, o.kind.hasInputs = true → pRomEx.model.hasInputs = true := by
    intro o ho
    simp only [PModel.ops, pRomEx, pOptEx, map_cons, map_nil, mem_cons, not_mem_nil, or_false] at ho
    rcases ho with rfl | rfl <;> simp [POp.kind, OpKind.hasInputs]
  obtain ⟨-, us', -, y, hopt⟩ := C86_plain toyLib pRomLs pRomLs_spec pRomEx pRomTrained _ rfl pExPars pRomStates none none
    false false _ hp 1 0 ⟨by simp [pExPars], by simp [pRomEx, pOptEx], by decide, by
      intro Y hY
      simp only [mem_cons, not_mem_nil, or_false] at hY
      rcases hY with rfl | rfl <;> rfl, by simp, by simp, hflag, pRomEx_known⟩ pRomEx_learnable pRomTrained_fit
  have he : Forall₂ (fun q e => pRomTrained.rom.encode1 q = .ok e) pRomStates
      [.mat 3 [[1, 5, 13]], .mat 2 [[1, 8]]] := .cons (by decide +kernel) (.cons (by decide +kernel) .nil)
  refine C86_reproduces toyLib pRomLs pRomLs_spec pRomEx pRomTrained rfl rfl pExPars pRomStates
    [.mat 3 [[1, 5, 13]], .mat 2 [[1, 8]]] none false false pRomTrained_fit he 1 0 ?_ pRomEx_learnable
    pRomTrained.model.slots hopt.among ?_ 0 (.scalar 1) _ (.mat 3 [[1, 5, 13]]) rfl rfl rfl (by decide) (.vec [1, 100])
    (by decide +kernel)
  · refine ⟨by simp [pExPars], by simp [pRomEx, pOptEx], by decide, rfl, ?_, ?_, by simp [pRomEx, pOptEx], by simp, rfl,
      pRomEx_known⟩
    · intro e he
      simp only [mem_cons, not_mem_nil, or_false] at he
      rcases he with rfl | rfl <;> simp [Snap.WF]
    · intro e he
      simp only [mem_cons, not_mem_nil, or_false] at he
      rcases he with rfl | rfl <;> rfl
  · intro i mu e hmu he j hj
    match i with
    | 0 =>
      cases hmu; cases he
      match j with
      | 0 => decide +kernel
      | 1 => decide +kernel
      | j + 2 => exact absurd hj (by change ¬ j + 2 + 1 < 3; omega)
    | 1 =>
      cases hmu; cases he
      match j with
      | 0 => decide +kernel
      | j + 1 => exact absurd hj (by change ¬ j + 1 + 1 < 2; omega)
    | i + 2 => simp [pExPars] at hmu

/-- The prediction. -/
example : pRomTrained.predict (pModelI toyLib (plainSolver pRomLs)) (.scalar 1) (.vec [1, 100]) 3 .none =
    .ok (.mat 3 [[1, 5, 13], [0, 0, 0]]) := by decide +kernel

/-- ... and the refusal of two initial states. -/
example : pRomTrained.predict (pModelI toyLib (plainSolver pRomLs)) (.scalar 1) (.mat 2 [[1, 2], [100, 0]]) 3 .none =
    .error .dimensionality :=
  C86_initial_state_refused _ pRomTrained _ _ _ _ 2 [[1, 2]] (by decide +kernel)

/-- The data of `C86_given_lhs` for the same model. -/
example : (pRomEx.fit (pModelI toyLib (plainSolver pRomLs)) pExPars [.mat 2 [[1, 5], [7, 8]], .mat 1 [[1], [0]]]
    (some [.mat 2 [[5, 13], [8, 9]], .mat 1 [[8], [1]]]) none false false).2 = .ok () := by decide +kernel

/-- The hypotheses of `C86_missing`: an estimator is needed for time-continuous models. -/
example : ({ pRomEx with rom := { pRomEx.rom with continuous := true } } : PRom ℚ (Sst ℚ) (LinB ℚ) _).fit
    (pModelI toyLib (plainSolver pRomLs)) pExPars pRomStates none none false false =
    ({ pRomEx with rom := { pRomEx.rom with continuous := true } }, .error .value) :=
  C86_missing _ _ _ _ _ _ _ _ (.inl ⟨rfl, rfl, rfl⟩)

end Opinf
