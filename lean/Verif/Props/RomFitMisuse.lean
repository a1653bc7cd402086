import Verif.Props.RomFitOptimal
import Verif.Props.TransformFit

/-!
# C71: training data of trajectories that do not match
-/

namespace Opinf

open List

variable {K T B S : Type}

theorem calibrated_false (R : Rom K T B) (qs es : List (Snap K)) (h : Forall₂ (fun q e => R.encode1 q = .ok e) qs es) :
    Calibrated R R false false qs := by
  obtain ⟨Ls, Xs, h1, h2, -⟩ := (forall₂_encode R qs es).mp h
  have cf : ∀ {X J : Type} (fit : J → X → Snap K → X × Except Err Unit) (Qs : List (Snap K)) (o : Option (J × X)),
      CompFitted fit false Qs o o := by
    intro X J fit Qs o
    cases o with
    | none => rfl
    | some x => exact ⟨x.2, rfl, rfl⟩
  exact ⟨rfl, rfl, Ls, Xs, h1, cf _ _ _, h2, cf _ _ _⟩

theorem process_encoded (R : FRom K T B S) (qs es : List (Snap K)) (us : Option (List (Snap K)))
    (h : Forall₂ (fun q e => R.rom.encode1 q = .ok e) qs es) :
    R.process qs none us false false = (R, R.lhsTrain es none us) := by
  have : R.rom.reduceTrain false false qs none = (R.rom, .ok (es, none)) := by
    rw [reduceTrain_none]
    exact ⟨rfl, calibrated_false R.rom qs es h, h⟩
  rw [FRom.process, this]

/-- **C71** (negation of the desired behaviour): trajectories for which there are no inputs are silently left out
of the training with estimated derivatives, instead of being refused. -/
theorem C71_trajectories_dropped [CommRing K] (I : SolverI K S) (R : FRom K T B S) (hc : R.rom.continuous = true)
    (E : DdtI K) (hE : R.ddt = some E) (qs ps es fs us : List (Snap K)) (hq : qs ≠ []) (hlen : us.length = qs.length)
    (h1 : Forall₂ (fun q e => R.rom.encode1 q = .ok e) qs es)
    (h2 : Forall₂ (fun q e => R.rom.encode1 q = .ok e) ps fs) :
    R.fit I (.many (qs ++ ps)) none (some (.many us)) false false =
      R.fit I (.many qs) none (some (.many us)) false false := by
  have hne : ∀ rs : List (Snap K), rs ≠ [] → fixLists (.many rs) none (some (.many us)) = .ok (rs, none, some us) := by
    intro rs hrs
    cases rs with
    | nil => exact absurd rfl hrs
    | cons r rs => rfl
  have hp : R.process (qs ++ ps) none (some us) false false = R.process qs none (some us) false false := by
    rw [process_encoded R _ _ _ (rel_append h1 h2), process_encoded R _ _ _ h1]
    have : zip (es ++ fs) us = zip es us := by
      have hl : us.length = es.length := by rw [hlen, h1.length_eq]
      rw [← append_nil us, zip_append hl.symm]
      simp
    simp only [FRom.lhsTrain, hc, if_true, hE, estimateTrain, this]
  rw [FRom.fit, FRom.fit, hne qs hq, hne (qs ++ ps) (by simp [hq])]
  cases R.checkFitArgs (Option.isNone (none : Option (TrainArg K))) (Option.isNone (some (TrainArg.many us))) with
  | error e => rfl
  | ok x =>
    simp only [FRom.fitLists, hp]

/-- **C71** (negation of the desired behaviour): for a reduced-order model that only consists of a model, the left-hand
sides enter only through their concatenation, so that they may belong to other trajectories than the states. -/
theorem C71_only_totals_matter [CommRing K] (I : SolverI K S) (R : FRom K T B S) (hl : R.rom.lifter = none)
    (ht : R.rom.transformer = none) (hb : R.rom.basis = none) (qs zs zs' : List (Snap K))
    (us : Option (List (Snap K))) (fitT fitB : Bool) (h : hstackAll zs = hstackAll zs') :
    R.fitLists I qs (some zs) us fitT fitB = R.fitLists I qs (some zs') us fitT fitB := by
  have hr : ∀ ws : List (Snap K), R.process qs (some ws) us fitT fitB = (R, .ok ⟨qs, ws, us⟩) := by
    intro ws
    simp only [FRom.process, Rom.reduceTrain, Rom.liftTrain, hl, Rom.tfTrain, ht, Rom.basisTrain, hb, FRom.lhsTrain]
  simp only [FRom.fitLists, hr, TrainData.stacked, h]

/-- **C71** (negation of the desired behaviour): with given next states, inputs longer than the states are cut off at
the total number of snapshots instead of trajectory by trajectory, so that the inputs of all but the first trajectory
are shifted. -/
theorem C71_inputs_shifted [CommRing K] (I : SolverI K S) (R : FRom K T B S) (hl : R.rom.lifter = none)
    (ht : R.rom.transformer = none) (hb : R.rom.basis = none) (hc : R.rom.continuous = false)
    (qs zs us us' : List (Snap K)) (fitT fitB : Bool) (Y U U' : Snap K) (hY : hstackAll qs = .ok Y)
    (hU : hstackAll us = .ok U) (hU' : hstackAll us' = .ok U')
    (h : U.toArg.takeCols Y.columnList.length = U'.toArg.takeCols Y.columnList.length) :
    R.fitLists I qs (some zs) (some us) fitT fitB = R.fitLists I qs (some zs) (some us') fitT fitB := by
  have hr : ∀ ws : List (Snap K), R.process qs (some zs) (some ws) fitT fitB = (R, .ok ⟨qs, zs, some ws⟩) := by
    intro ws
    simp only [FRom.process, Rom.reduceTrain, Rom.liftTrain, hl, Rom.tfTrain, ht, Rom.basisTrain, hb, FRom.lhsTrain]
  have hm : ∀ Z, fitModel I R.model false Y Z (some U) = fitModel I R.model false Y Z (some U') := by
    intro Z
    simp only [fitModel, Bool.false_eq_true, if_false, Option.map_some]
    cases Y with
    | vec xs => rfl
    | mat k rows =>
      change R.model.fitDiscrete I rows.length (transpose k rows) (some Z.toArg) (some U.toArg) =
        R.model.fitDiscrete I rows.length (transpose k rows) (some Z.toArg) (some U'.toArg)
      obtain ⟨-, e2, -⟩ := C63_discrete_fit_explicit I R.model rows.length (transpose k rows) Z.toArg
      rw [e2 _ (by cases U <;> simp [Snap.toArg]), e2 _ (by cases U' <;> simp [Snap.toArg])]
      have : (transpose k rows).length = (Snap.mat k rows).columnList.length := rfl
      rw [this, h]
  simp only [FRom.fitLists, hr, TrainData.stacked, stackInputs, hY, hU, hU', Except.map, bind, Except.bind, pure,
    Except.pure, hc]
  cases hstackAll zs with
  | error e => rfl
  | ok Z => simp only [hm]

/-! ### Witnesses -/

/-- A reduced-order model that consists of a model with inputs and a derivative estimator. -/
def exBare : FRom ℚ Unit Unit (Option (Nat × Nat)) := ⟨⟨none, none, none, true⟩, some (fdDdt .fwd1 1), exModel⟩

/-- Three trajectories, inputs for two of them: the training succeeds without the third one. -/
theorem C71_dropped_witness :
    let Q1 : Snap ℚ := .mat 3 [[1, 2, 4], [0, 1, 1]]
    let Q2 : Snap ℚ := .mat 2 [[5, 6], [1, 2]]
    let Q3 : Snap ℚ := .mat 2 [[100, 200], [300, 400]]
    let us : List (Snap ℚ) := [.vec [1, 2, 3], .vec [7, 8]]
    (exBare.fit exSolver (.many [Q1, Q2, Q3]) none (some (.many us)) false false).2 = .ok () ∧
    (exBare.process [Q1, Q2, Q3] none (some us) false false).2 =
      .ok ⟨[.mat 2 [[1, 2], [0, 1]], .mat 1 [[5], [1]]], [.mat 2 [[1, 2], [1, 0]], .mat 1 [[1], [1]]],
        some [.mat 2 [[1, 2]], .mat 1 [[7]]]⟩ := by
  refine ⟨?_, ?_⟩ <;> decide +kernel

/-- Two trajectories with two snapshots and one snapshot, left-hand sides with one and two columns: the training
succeeds, and is the same as if the first column of the second left-hand side belonged to the first trajectory. -/
theorem C71_misaligned_witness :
    let qs : List (Snap ℚ) := [.mat 2 [[1, 2], [0, 1]], .mat 1 [[5], [1]]]
    let zs : List (Snap ℚ) := [.mat 1 [[10], [20]], .mat 2 [[30, 50], [40, 60]]]
    let zs' : List (Snap ℚ) := [.mat 2 [[10, 30], [20, 40]], .mat 1 [[50], [60]]]
    let us : List (Snap ℚ) := [.vec [1, 2], .vec [7]]
    (exBare.fit exSolver (.many qs) (some (.many zs)) (some (.many us)) false false).2 = .ok () ∧
    exBare.fitLists exSolver qs (some zs) (some us) false false =
      exBare.fitLists exSolver qs (some zs') (some us) false false := by
  refine ⟨by decide +kernel, ?_⟩
  exact C71_only_totals_matter exSolver exBare rfl rfl rfl _ _ _ _ _ _ (by decide +kernel)

/-- Two trajectories of a fully discrete model with three states each, given as states and next states, and three
inputs each: the training succeeds, but the second trajectory gets the last input of the first one. -/
theorem C71_shifted_witness :
    let R : FRom ℚ Unit Unit (Option (Nat × Nat)) := ⟨⟨none, none, none, false⟩, none, exModel⟩
    let qs : List (Snap ℚ) := [.mat 2 [[1, 2], [0, 1]], .mat 2 [[5, 6], [1, 0]]]
    let zs : List (Snap ℚ) := [.mat 2 [[2, 3], [1, 4]], .mat 2 [[6, 8], [0, 9]]]
    let us : List (Snap ℚ) := [.vec [1, 2, 3], .vec [11, 12, 13]]
    let us' : List (Snap ℚ) := [.vec [1, 2], .vec [3, 11]]
    (R.fit exSolver (.many qs) (some (.many zs)) (some (.many us)) false false).2 = .ok () ∧
    R.fitLists exSolver qs (some zs) (some us) false false = R.fitLists exSolver qs (some zs) (some us') false false := by
  refine ⟨by decide +kernel, ?_⟩
  exact C71_inputs_shifted exSolver _ rfl rfl rfl rfl _ _ _ _ _ _ (.mat 4 [[1, 2, 5, 6], [0, 1, 1, 0]])
    (.vec [1, 2, 3, 11, 12, 13]) (.vec [1, 2, 3, 11]) (by decide +kernel) (by decide +kernel) (by decide +kernel)
    (by decide +kernel)

/-- **C71** (what holds): inputs that do not have as many columns as the states of their trajectory are refused by a
finite difference estimator. -/
theorem C71_estimator_checks_partial [Field K] [DecidableEq K] (s : Scheme) (dt : K) (k l : Nat)
    (rows us : List (List K)) (h : l ≠ k) :
    (fdDdt s dt).estimateWith (.mat k rows) (.mat l us) = .error .dimensionality := by
  have := C32_misaligned_inputs_rejected s dt ⟨rows.length, k, rows⟩ (.mat ⟨us.length, l, us⟩) h
  simp only [fdDdt, this]

/-! ### Examples for C69 and C70 -/

/-- A fully discrete reduced-order model with centering and a basis vector. -/
def exTrain : FRom ℚ (Sst ℚ) (LinB ℚ) (Plain ℚ) :=
  ⟨⟨none, some (sstI exSqrt, ⟨true, none, false, none, false, none, none, none, none⟩),
    some (linI, ⟨none, some 2, some 1, some ⟨2, [[1, 0]]⟩, none⟩), false⟩, none, exScalar⟩

/-- The mean is taken over both trajectories, and no step leads from one trajectory to the other. -/
example : (exTrain.process [.mat 2 [[1, 2], [5, 6]], .mat 3 [[4, 6, 7], [1, 1, 2]]] none none true true).2 =
    .ok ⟨[.mat 1 [[-3]], .mat 2 [[0, 2]]], [.mat 1 [[-2]], .mat 2 [[2, 3]]], none⟩ ∧
    (exTrain.process [.mat 2 [[1, 2], [5, 6]], .mat 3 [[4, 6, 7], [1, 1, 2]]] none none true true).1.rom.encode1
      (.vec [5, 0]) = .ok (.vec [1]) := by
  refine ⟨?_, ?_⟩ <;> decide +kernel

/-- C70 applies to two trajectories of the doubling map. -/
example : let R : FRom ℚ Unit Unit (Plain ℚ) := ⟨⟨none, none, none, false⟩, none, exScalar⟩
    let qs : List (Snap ℚ) := [.mat 2 [[1, 2]], .mat 2 [[2, 4]]]
    ∃ O : Mat ℚ, TrainedOptimally R.model (R.fit (plainSolver exLs) (.many qs) none none true true).1.model
      [⟨[1], [2], none⟩, ⟨[2], [4], none⟩] (fun _ => 0) O := by
  intro R qs
  have hp : R.process qs none none true true = (R, .ok ⟨[.mat 1 [[1]], .mat 1 [[2]]], [.mat 1 [[2]], .mat 1 [[4]]], none⟩) :=
    Prod.ext rfl (by decide +kernel)
  obtain ⟨-, O, h⟩ := C70_plain exLs exLs_spec R _ exScalar_inv rfl (.many qs) none none true true qs none none rfl R _ hp
    ⟨by simp [Snap.WF], by simp [Snap.WF], by simp, rfl, by simp⟩ (by simp [Snap.nrows, Snap.toArg, atleast2d])
    (Prod.ext (x := R.fit (plainSolver exLs) (.many qs) none none true true) rfl (by decide +kernel))
  exact ⟨O, h⟩

end Opinf
