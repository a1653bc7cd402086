import Verif.Props.ParamRom

/-!
# C87: parametric training data with different numbers of parameters, trajectories, left-hand sides and inputs
-/

namespace Opinf

open List

variable {K T B S X : Type}

/-! ### Specification -/

/-- For how many parameters (`p`), trajectories (`q`), left-hand sides (`z`, if given) and inputs (`u`, if given)
training is not refused on account of these numbers. -/
def LengthsAccepted (lifting continuous hasIn : Bool) (p q : Nat) (z u : Option Nat) : Prop :=
  match z with
  | some z => q = p ∧ (if lifting && continuous then p ≤ z else z = p) ∧
      (hasIn = true → ∀ n ∈ u, if continuous then n = p else p ≤ n)
  | none => if continuous then (match u with
      | none => q = p
      | some n => min q n = p)
    else q = p ∧ (hasIn = true → ∀ n ∈ u, p ≤ n)

/-! ### Numbers of processed trajectories -/

theorem reduceTrain_lengths (R R' : Rom K T B) (fitT fitB : Bool) (qs : List (Snap K)) (zs : Option (List (Snap K)))
    (Y : List (Snap K)) (Z : Option (List (Snap K))) (h : R.reduceTrain fitT fitB qs zs = (R', .ok (Y, Z))) :
    R'.continuous = R.continuous ∧ Y.length = qs.length ∧ Z.map length = zs.map (fun l =>
      if R.lifter.isSome && R.continuous then min qs.length l.length else l.length) := by
  rw [Rom.reduceTrain] at h
  rcases hl : R.liftTrain qs zs with e | ⟨Y1, Z1⟩
  · simp [hl] at h
  simp only [hl] at h
  rcases ht : R.tfTrain fitT Y1 Z1 with ⟨R1, e | ⟨Y2, Z2⟩⟩
  · simp [ht] at h
  simp only [ht] at h
  obtain ⟨⟨-, -, c1⟩, -, t1, t2⟩ := (tfTrain_ok R R1 fitT Y1 Z1 Y2 Z2).1 ht
  obtain ⟨⟨-, -, c2⟩, -, b1, b2⟩ := (basisTrain_ok R1 R' fitB Y2 Z2 Y Z).1 h
  have hZ : Z.map length = Z1.map length := by
    cases t2 with
    | none => cases b2; rfl
    | some ht2 =>
      cases b2 with
      | some hb2 => simp [ht2.length_eq, hb2.length_eq]
  refine ⟨c2.trans c1, ?_, ?_⟩
  · rw [← b1.length_eq, ← t1.length_eq]
    cases zs with
    | none => exact ((liftTrain_none R qs Y1 Z1).1 hl).2.length_eq.symm
    | some l =>
      rw [Rom.liftTrain] at hl
      split at hl
      · injection hl with hl; injection hl with hl; rw [hl]
      · rename_i L hL
        simp only at hl
        split at hl
        · cases hl
        · rename_i E hE
          cases hm : qs.mapM L.lift with
          | error e => simp [hm, Except.map] at hl
          | ok W =>
            simp only [hm, Except.map, Except.ok.injEq, Prod.mk.injEq] at hl
            rw [← hl.1]
            exact (mapM_ok_forall2.1 hm).length_eq.symm
  · rw [hZ]
    cases zs with
    | none => rw [((liftTrain_none R qs Y1 Z1).1 hl).1]; rfl
    | some l =>
      rw [Rom.liftTrain] at hl
      split at hl
      · rename_i hL
        injection hl with hl; injection hl with _ hl; rw [← hl]; simp [hL]
      · rename_i L hL
        simp only at hl
        split at hl
        · cases hl
        · rename_i E hE
          cases hm : qs.mapM L.lift with
          | error e => simp [hm, Except.map] at hl
          | ok W =>
            simp only [hm, Except.map, Except.ok.injEq, Prod.mk.injEq] at hl
            rw [← hl.2]
            rw [liftLhs] at hE
            cases hc : R.continuous with
            | true =>
              rw [hc, if_pos rfl] at hE
              have := (mapM_ok_forall2.1 hE).length_eq
              simp [hL, ← this]
            | false =>
              rw [hc, if_neg (by simp)] at hE
              have := (mapM_ok_forall2.1 hE).length_eq
              simp [← this]

theorem process_lengths (R : FRom K T B S) (R' : FRom K T B S) (fitT fitB : Bool) (qs : List (Snap K))
    (zs us : Option (List (Snap K))) (d : TrainData K) (h : R.process qs zs us fitT fitB = (R', .ok d)) :
    R'.rom.continuous = R.rom.continuous ∧
    (∀ l ∈ zs, d.states.length = qs.length ∧ d.inputs = us ∧ d.lhs.length =
      if R.rom.lifter.isSome && R.rom.continuous then min qs.length l.length else l.length) ∧
    (zs = none → R.rom.continuous = true →
      d.states.length = (match us with | none => qs.length | some vs => min qs.length vs.length)) ∧
    (zs = none → R.rom.continuous = false → d.states.length = qs.length ∧
      d.inputs.map length = us.map fun vs => min qs.length vs.length) := by
  rw [FRom.process] at h
  rcases hr : R.rom.reduceTrain fitT fitB qs zs with ⟨R1, e | ⟨Y, Z⟩⟩
  · simp [hr] at h
  obtain ⟨hc, hY, hZ⟩ := reduceTrain_lengths _ _ _ _ _ _ _ _ hr
  simp only [hr, Prod.mk.injEq] at h
  obtain ⟨rfl, h⟩ := h
  refine ⟨hc, ?_, ?_, ?_⟩
  · rintro l hl
    obtain rfl : zs = some l := hl
    obtain ⟨E, rfl⟩ : ∃ E, Z = some E := by cases Z with
      | none => simp at hZ
      | some E => exact ⟨E, rfl⟩
    simp only [FRom.lhsTrain, Except.ok.injEq] at h
    subst h
    exact ⟨hY, rfl, by simpa using hZ⟩
  · rintro rfl hcc
    obtain rfl : Z = none := by simpa using hZ
    simp only [FRom.lhsTrain, hc, hcc, if_true] at h
    split at h
    · cases h
    · rename_i E hE
      cases us with
      | none =>
        simp only [estimateTrain] at h
        split at h
        · cases h
        · cases h
        · rename_i xs _ hm
          injection h with h
          subst h
          simp [← (mapM_ok_forall2.1 hm).length_eq, hY]
      | some vs =>
        simp only [estimateTrain] at h
        split at h
        · cases h
        · cases h
        · rename_i xs _ hm
          injection h with h
          subst h
          simp [← (mapM_ok_forall2.1 hm).length_eq, hY]
  · rintro rfl hcc
    obtain rfl : Z = none := by simpa using hZ
    simp only [FRom.lhsTrain, hc, hcc, Bool.false_eq_true, if_false, shiftTrain] at h
    split at h
    · cases h
    · split at h
      · cases h
      · rename_i Y2 hm
        injection h with h
        subst h
        have := (mapM_ok_forall2.1 hm).length_eq
        refine ⟨by rw [← this, hY], ?_⟩
        cases us with
        | none => rfl
        | some vs => simp [← this, hY]

/-- A model that learns from data is fitted to as many trajectories and left-hand sides, and, if it has inputs, inputs as
parameters. -/
theorem pmodel_lengths [CommRing K] [LinearOrder K] (lib : ItpLib K) (I : SolverI K S) (M M' : PModel K S)
    (hint : M.intrusive = false) (ps : List (Par K)) (states lhs : List (Arg K)) (inputs : Option (List (Arg K)))
    (h : M.fit lib I ps states lhs inputs = (M', .ok ())) :
    states.length = ps.length ∧ lhs.length = ps.length ∧
      (M.hasInputs = true → ∃ us, inputs = some us ∧ us.length = ps.length) := by
  rw [PModel.fit, hint, if_neg (by simp), PModel.fitSolver] at h
  rcases hp : M.processFitArgs lib ps states lhs inputs with ⟨M1, e | ⟨data, Z⟩⟩
  · simp [hp] at h
  obtain ⟨d, U, -, -, -, -, -, -, h1, -, h2, -, -, h3, -⟩ := process_inv lib M M1 ps states lhs inputs data Z hp
  refine ⟨h1, h2, fun hi => ?_⟩
  obtain ⟨us, e1, -, e2, -⟩ := h3 hi
  exact ⟨us, e1, e2⟩

/-! ### C87: what is refused -/

/-- **C87** (what holds): training that succeeds had numbers of trajectories, left-hand sides and inputs that are
accepted for the number of parameters. -/
theorem C87_accepted_partial [CommRing K] [LinearOrder K] (lib : ItpLib K) (I : SolverI K S)
    (R R' : PRom K T B (PModel K S)) (hint : R.model.intrusive = false) (ps : List (Par K)) (qs : List (Snap K))
    (lhs us : Option (List (Snap K))) (fitT fitB : Bool)
    (h : R.fit (pModelI lib I) ps qs lhs us fitT fitB = (R', .ok ())) :
    LengthsAccepted R.rom.lifter.isSome R.rom.continuous R.model.hasInputs ps.length qs.length (lhs.map length)
      (us.map length) := by
  obtain ⟨hcheck, d, hp, -, us', hT, hfit⟩ := (pfit_ok _ _ _ _ _ _ _ _ _).1 h
  have hcheck := ((pcheck_ok _ _ _ _).1 hcheck).2
  obtain ⟨hc, hl, he, hd⟩ := process_lengths _ _ _ _ _ _ _ _ hp
  obtain ⟨h1, h2, h3⟩ := pmodel_lengths lib I R.model R'.model hint ps _ _ _ hfit
  simp only [length_map] at h1 h2
  simp only at hc hl he hd
  rw [TrainInputs, hc] at hT
  cases lhs with
  | some zs =>
    obtain ⟨e1, e2, e3⟩ := hl zs rfl
    refine ⟨by omega, ?_, ?_⟩
    · split
      · rename_i hcl
        rw [if_pos hcl] at e3
        omega
      · rename_i hcl
        rw [if_neg hcl] at e3
        omega
    · intro hi n hn
      obtain ⟨vs, rfl, rfl⟩ : ∃ vs, us = some vs ∧ n = vs.length := by
        cases us with
        | none => simp at hn
        | some vs => exact ⟨vs, rfl, by simpa [eq_comm] using hn⟩
      obtain ⟨ws, e4, e5⟩ := h3 hi
      cases hcc : R.rom.continuous with
      | true =>
        obtain rfl := hT.1 hcc
        rw [e2] at e4
        simp only [Option.map_some, Option.some.injEq] at e4
        subst e4
        simpa using e5
      | false =>
        obtain ⟨ws', rfl, e6⟩ := (hT.2 hcc).2 vs e2
        simp only [Option.map_some, Option.some.injEq] at e4
        subst e4
        have := e6.length_eq
        simp only [length_zip, length_map] at this e5
        simp only [Bool.false_eq_true, if_false]
        omega
  | none =>
    cases hcc : R.rom.continuous with
    | true =>
      have e1 := he rfl hcc
      simp only [LengthsAccepted, Option.map_none, if_true]
      cases us with
      | none => simp only at e1; simp only [Option.map_none]; omega
      | some vs => simp only at e1; simp only [Option.map_some]; omega
    | false =>
      obtain ⟨e1, e2⟩ := hd rfl hcc
      refine ⟨by omega, ?_⟩
      intro hi n hn
      obtain ⟨vs, rfl, rfl⟩ : ∃ vs, us = some vs ∧ n = vs.length := by
        cases us with
        | none => simp at hn
        | some vs => exact ⟨vs, rfl, by simpa [eq_comm] using hn⟩
      obtain ⟨ws, e4, e5⟩ := h3 hi
      obtain ⟨vs', e7⟩ : ∃ vs', d.inputs = some vs' := by
        cases hdi : d.inputs with
        | none => simp [hdi] at e2
        | some x => exact ⟨x, rfl⟩
      obtain ⟨ws', rfl, e6⟩ := (hT.2 hcc).2 vs' e7
      simp only [Option.map_some, Option.some.injEq] at e4
      subst e4
      have := e6.length_eq
      simp only [e7, Option.map_some, Option.some.injEq] at e2
      simp only [length_zip, length_map] at this e5
      omega

/-- **C87** (what holds): a time-continuous model without lifter is never trained with given left-hand sides unless there
are as many parameters as trajectories, left-hand sides, and inputs, if the model has inputs. -/
theorem C87_refused_partial [CommRing K] [LinearOrder K] (lib : ItpLib K) (I : SolverI K S)
    (R : PRom K T B (PModel K S)) (hint : R.model.intrusive = false) (hl : R.rom.lifter = none)
    (hc : R.rom.continuous = true) (ps : List (Par K)) (qs zs : List (Snap K)) (us : Option (List (Snap K)))
    (fitT fitB : Bool) (h : ps.length ≠ qs.length ∨ ps.length ≠ zs.length ∨
      (R.model.hasInputs = true ∧ ∃ vs ∈ us, ps.length ≠ vs.length)) :
    (R.fit (pModelI lib I) ps qs (some zs) us fitT fitB).2 ≠ .ok () := by
  intro hok
  rcases hf : R.fit (pModelI lib I) ps qs (some zs) us fitT fitB with ⟨R', x⟩
  rw [hf] at hok
  simp only at hok
  subst hok
  obtain ⟨h1, h2, h3⟩ := C87_accepted_partial lib I R R' hint ps qs (some zs) us fitT fitB hf
  simp only [hl, Option.isSome_none, Bool.false_and, Bool.false_eq_true, if_false, hc, if_true] at h2 h3
  rcases h with h | h | ⟨hi, vs, hvs, h⟩
  · omega
  · omega
  · obtain rfl : us = some vs := hvs
    exact h (h3 hi _ rfl).symm

/-! ### C87: what is not refused -/

/-- The common part of the following theorems: training depends on the data through what processing makes of them. -/
theorem pfit_congr [Zero K] (P : ParI K X) (R : PRom K T B X) (ps : List (Par K)) (qs qs' : List (Snap K))
    (lhs lhs' us us' : Option (List (Snap K))) (fitT fitB : Bool) (h1 : lhs.isNone = lhs'.isNone)
    (h2 : us.isNone = us'.isNone)
    (h : (FRom.mk R.rom R.ddt (noModel (K := K))).process qs lhs us fitT fitB =
      (FRom.mk R.rom R.ddt (noModel (K := K))).process qs' lhs' us' fitT fitB) :
    R.fit P ps qs lhs us fitT fitB = R.fit P ps qs' lhs' us' fitT fitB := by
  simp only [PRom.fit, PRom.process, h, h1, h2]

/-- **C87** (negation of the desired behaviour): with a lifter and a time-continuous model, left-hand sides for which
there are no states are ignored. -/
theorem C87_surplus_lhs [Zero K] (P : ParI K X) (R : PRom K T B X) (hl : R.rom.lifter.isSome = true)
    (hc : R.rom.continuous = true) (ps : List (Par K)) (qs zs more : List (Snap K)) (hlen : zs.length = qs.length)
    (us : Option (List (Snap K))) (fitT fitB : Bool) :
    R.fit P ps qs (some (zs ++ more)) us fitT fitB = R.fit P ps qs (some zs) us fitT fitB := by
  refine pfit_congr P R ps qs qs _ _ us us fitT fitB rfl rfl ?_
  have hz : zip qs (zs ++ more) = zip qs zs := by
    have := zip_append (r₁ := ([] : List (Snap K))) (r₂ := more) hlen.symm
    simpa using this
  have : R.rom.liftTrain qs (some (zs ++ more)) = R.rom.liftTrain qs (some zs) := by
    obtain ⟨L, hL⟩ := Option.isSome_iff_exists.1 hl
    simp only [Rom.liftTrain, hL, liftLhs, hc, if_true, hz]
  simp only [FRom.process, Rom.reduceTrain, this]

/-- **C87** (negation of the desired behaviour): with estimated time derivatives, inputs for which there are no states are
ignored. -/
theorem C87_surplus_inputs [Zero K] (P : ParI K X) (R : PRom K T B X) (hc : R.rom.continuous = true)
    (ps : List (Par K)) (qs us more : List (Snap K)) (hlen : us.length = qs.length) (fitT fitB : Bool) :
    R.fit P ps qs none (some (us ++ more)) fitT fitB = R.fit P ps qs none (some us) fitT fitB := by
  refine pfit_congr P R ps qs qs _ _ _ _ fitT fitB rfl rfl ?_
  simp only [FRom.process]
  rcases hr : R.rom.reduceTrain fitT fitB qs none with ⟨R1, e | ⟨Y, Z⟩⟩
  · rfl
  · obtain ⟨h1, h2, h3⟩ := reduceTrain_lengths _ _ _ _ _ _ _ _ hr
    obtain rfl : Z = none := by simpa using h3
    have hz : zip Y (us ++ more) = zip Y us := by
      have := zip_append (l₁ := Y) (l₂ := us) (r₁ := ([] : List (Snap K))) (r₂ := more) (by omega)
      simpa using this
    simp only [FRom.lhsTrain, h1, hc, if_true]
    cases R.ddt with
    | none => rfl
    | some E => simp only [estimateTrain, hz]

/-- **C87** (negation of the desired behaviour): with estimated time derivatives, trajectories for which there are no
inputs are left out of the training, although there may be parameters for none of them. -/
theorem C87_surplus_states [Zero K] (P : ParI K X) (R : PRom K T B X) (hc : R.rom.continuous = true)
    (ps : List (Par K)) (qs more es fs us : List (Snap K)) (hlen : us.length = qs.length)
    (h1 : Forall₂ (fun q e => R.rom.encode1 q = .ok e) qs es)
    (h2 : Forall₂ (fun q e => R.rom.encode1 q = .ok e) more fs) :
    R.fit P ps (qs ++ more) none (some us) false false = R.fit P ps qs none (some us) false false := by
  refine pfit_congr P R ps _ _ _ _ _ _ false false rfl rfl ?_
  rw [process_encoded _ _ _ _ (rel_append h1 h2), process_encoded _ _ _ _ h1]
  have hz : zip (es ++ fs) us = zip es us := by
    have := zip_append (l₁ := es) (l₂ := us) (r₁ := fs) (r₂ := ([] : List (Snap K)))
      (by rw [hlen, h1.length_eq])
    simpa using this
  simp only [FRom.lhsTrain, hc, if_true]
  cases R.ddt with
  | none => rfl
  | some E => simp only [estimateTrain, hz]

/-- **C87** (negation of the desired behaviour): for a fully discrete model, inputs for which there are no states are
ignored. -/
theorem C87_surplus_inputs_discrete [Zero K] (P : ParI K X) (R : PRom K T B X) (hc : R.rom.continuous = false)
    (ps : List (Par K)) (qs us more : List (Snap K)) (hlen : us.length = qs.length) (lhs : Option (List (Snap K)))
    (fitT fitB : Bool) :
    R.fit P ps qs lhs (some (us ++ more)) fitT fitB = R.fit P ps qs lhs (some us) fitT fitB := by
  cases lhs with
  | none =>
    refine pfit_congr P R ps qs qs _ _ _ _ fitT fitB rfl rfl ?_
    simp only [FRom.process]
    rcases hr : R.rom.reduceTrain fitT fitB qs none with ⟨R1, e | ⟨Y, Z⟩⟩
    · rfl
    · obtain ⟨h1, h2, h3⟩ := reduceTrain_lengths _ _ _ _ _ _ _ _ hr
      obtain rfl : Z = none := by simpa using h3
      simp only [FRom.lhsTrain, h1, hc, Bool.false_eq_true, if_false, shiftTrain]
      cases Y.mapM Snap.tailCols with
      | error e => rfl
      | ok W =>
        cases hm : Y.mapM Snap.initCols with
        | error e => rfl
        | ok V =>
          have hV := (mapM_ok_forall2.1 hm).length_eq
          have : zipWith (fun Q (U : Snap K) => U.firstCols Q.ncolumns) V (us ++ more) =
              zipWith (fun Q (U : Snap K) => U.firstCols Q.ncolumns) V us := by
            have := zipWith_append (f := fun (Q U : Snap K) => U.firstCols Q.ncolumns) (l₁ := V) (l₂ := us)
              (l₁' := []) (l₂' := more) (by omega)
            simpa using this
          simp only [Option.map_some, this]
  | some zs =>
    simp only [PRom.fit, PRom.process, FRom.process, Option.isNone_some]
    cases R.checkFitArgs P false false with
    | error e => rfl
    | ok u =>
      rcases hr : R.rom.reduceTrain fitT fitB qs (some zs) with ⟨R1, e | ⟨Y, Z⟩⟩
      · rfl
      · obtain ⟨h1, h2, h3⟩ := reduceTrain_lengths _ _ _ _ _ _ _ _ hr
        obtain ⟨E, rfl⟩ : ∃ E, Z = some E := by cases Z with
          | none => simp at h3
          | some E => exact ⟨E, rfl⟩
        have hz : zip (us ++ more) Y = zip us Y := by
          have := zip_append (l₁ := us) (l₂ := Y) (r₁ := more) (r₂ := ([] : List (Snap K))) (by omega)
          simpa using this
        simp only [FRom.lhsTrain, ParI.train, h1, hc, Bool.false_eq_true, if_false, cutInputs, hz]

/-! ### Witnesses -/

/-- An affine linear operator and an input operator, both to be learned. -/
def pInEx : PModel ℚ (Option (Nat × Nat)) where
  slots := [⟨.aff ⟨.lin, 2, fun mu => .ok (.vec (1 :: mu.toList)), none, none⟩, true⟩, ⟨.np ⟨.inp, none⟩, true⟩]
  hasInputs := true
  r := none
  m := none
  intrusive := false
  solver := some none
  p := none
  s := none

/-- Two parameters and three left-hand sides: training succeeds with a lifter. -/
theorem C87_surplus_lhs_witness :
    let R : PRom ℚ Unit Unit (PModel ℚ (Option (Nat × Nat))) := ⟨⟨some quadLifter, none, none, true⟩, none, pEx⟩
    let qs : List (Snap ℚ) := [.mat 2 [[1, 2]], .mat 1 [[5]]]
    let zs : List (Snap ℚ) := [.mat 2 [[3, 4]], .mat 1 [[6]], .mat 1 [[100]]]
    (R.fit (pModelI toyLib exSolver) pExPars qs (some zs) none false false).2 = .ok () ∧
    R.fit (pModelI toyLib exSolver) pExPars qs (some zs) none false false =
      R.fit (pModelI toyLib exSolver) pExPars qs (some (zs.take 2)) none false false := by
  refine ⟨by decide +kernel, ?_⟩
  exact C87_surplus_lhs (pModelI toyLib exSolver)
    (⟨⟨some quadLifter, none, none, true⟩, none, pEx⟩ : PRom ℚ Unit Unit (PModel ℚ (Option (Nat × Nat)))) rfl rfl pExPars
    [.mat 2 [[1, 2]], .mat 1 [[5]]] [.mat 2 [[3, 4]], .mat 1 [[6]]] [.mat 1 [[100]]] rfl none false false

/-- Two parameters, three trajectories and two inputs: training succeeds without the third trajectory. Two parameters, two
trajectories and three inputs: training succeeds without the third input. -/
theorem C87_surplus_estimated_witness :
    let R : PRom ℚ Unit Unit (PModel ℚ (Option (Nat × Nat))) :=
      ⟨⟨none, none, none, true⟩, some (fdDdt .fwd1 1), pInEx⟩
    let Q1 : Snap ℚ := .mat 3 [[1, 2, 4], [0, 1, 1]]
    let Q2 : Snap ℚ := .mat 2 [[5, 6], [1, 2]]
    let Q3 : Snap ℚ := .mat 2 [[100, 200], [300, 400]]
    let U1 : Snap ℚ := .vec [1, 2, 3]
    let U2 : Snap ℚ := .vec [7, 8]
    (R.fit (pModelI toyLib exSolver) pExPars [Q1, Q2, Q3] none (some [U1, U2]) false false).2 = .ok () ∧
    (R.fit (pModelI toyLib exSolver) pExPars [Q1, Q2] none (some [U1, U2, U2]) false false).2 = .ok () ∧
    (R.fit (pModelI toyLib exSolver) pExPars [Q1, Q2, Q3] none (some [U1, U2, U2]) false false).2 ≠ .ok () := by
  refine ⟨?_, ?_, ?_⟩ <;> decide +kernel

/-- Two parameters, two trajectories and three inputs of a fully discrete model: training succeeds without the third
input, with and without next states. -/
theorem C87_surplus_discrete_witness :
    let R : PRom ℚ Unit Unit (PModel ℚ (Option (Nat × Nat))) := ⟨⟨none, none, none, false⟩, none, pInEx⟩
    let Q1 : Snap ℚ := .mat 3 [[1, 2, 4], [0, 1, 1]]
    let Q2 : Snap ℚ := .mat 2 [[5, 6], [1, 2]]
    let us : List (Snap ℚ) := [.vec [1, 2, 3], .vec [7, 8], .vec [9, 9]]
    (R.fit (pModelI toyLib exSolver) pExPars [Q1, Q2] none (some us) false false).2 = .ok () ∧
    (R.fit (pModelI toyLib exSolver) pExPars [Q1, Q2] (some [Q1, Q2]) (some us) false false).2 = .ok () ∧
    (R.fit (pModelI toyLib exSolver) pExPars [Q1] none (some us) false false).2 ≠ .ok () := by
  refine ⟨?_, ?_, ?_⟩ <;> decide +kernel

/-- The hypotheses of `C87_accepted_partial` and `C87_refused_partial` are satisfiable: two parameters, with two and with
three trajectories, left-hand sides and inputs. -/
example :
    let R : PRom ℚ Unit Unit (PModel ℚ (Option (Nat × Nat))) := ⟨⟨none, none, none, true⟩, none, pInEx⟩
    let qs : List (Snap ℚ) := [.mat 3 [[1, 2, 4], [0, 1, 1]], .mat 2 [[5, 6], [1, 2]]]
    let us : List (Snap ℚ) := [.vec [1, 2, 3], .vec [7, 8]]
    (R.fit (pModelI toyLib exSolver) pExPars qs (some qs) (some us) false false).2 = .ok () ∧
    (R.fit (pModelI toyLib exSolver) pExPars qs (some (qs ++ qs)) (some us) false false).2 ≠ .ok () ∧
    (R.fit (pModelI toyLib exSolver) pExPars qs (some qs) (some (us ++ us)) false false).2 ≠ .ok () := by
  refine ⟨by decide +kernel, ?_, ?_⟩
  · exact C87_refused_partial toyLib exSolver _ rfl rfl rfl _ _ _ _ _ _ (Or.inr (Or.inl (by decide)))
  · exact C87_refused_partial toyLib exSolver _ rfl rfl rfl _ _ _ _ _ _
      (Or.inr (Or.inr ⟨rfl, _, rfl, by decide⟩))

/-- The hypotheses of `C87_surplus_states` are satisfiable. -/
example :
    let R : PRom ℚ Unit Unit (PModel ℚ (Option (Nat × Nat))) :=
      ⟨⟨none, none, none, true⟩, some (fdDdt .fwd1 1), pInEx⟩
    let Q1 : Snap ℚ := .mat 3 [[1, 2, 4], [0, 1, 1]]
    let Q3 : Snap ℚ := .mat 2 [[100, 200], [300, 400]]
    Forall₂ (fun q e => R.rom.encode1 q = .ok e) [Q1] [Q1] ∧ Forall₂ (fun q e => R.rom.encode1 q = .ok e) [Q3] [Q3] := by
  refine ⟨Forall₂.cons ?_ .nil, Forall₂.cons ?_ .nil⟩ <;> decide +kernel

end Opinf
