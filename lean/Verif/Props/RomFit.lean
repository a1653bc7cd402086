import Verif.Lemmas.RomFit

/-!
# C69: the data on which a reduced-order model is trained
-/

namespace Opinf

open List

variable {K T B S : Type}

/-! ### Specification -/

/-- The parts of a reduced-order model after training with the trajectories `qs`: the lifter is unchanged, the
transformer is fitted to all the lifted trajectories side by side (if it is to be fitted), and the basis to
all the trajectories after lifting and the new transformation. -/
def Calibrated (R R' : Rom K T B) (fitT fitB : Bool) (qs : List (Snap K)) : Prop :=
  R'.lifter = R.lifter ∧ R'.continuous = R.continuous ∧
  ∃ Ls Xs, Forall₂ (LiftedTo R.lifter) qs Ls ∧ CompFitted TfI.fit fitT Ls R.transformer R'.transformer ∧
    Forall₂ (TransformedTo R'.transformer) Ls Xs ∧ CompFitted BasI.fit fitB Xs R.basis R'.basis

/-- `w` is the left-hand side `z` at the states `q` after lifting, transforming and compressing. -/
def LhsEncoded (R : Rom K T B) (q z w : Snap K) : Prop :=
  ∃ E F, LhsLifted R q z E ∧ LhsTransformed R E F ∧ CompressedTo R.basis F w

/-! ### Encoding trajectories -/

theorem encode_both (R : Rom K T B) (q z y w : Snap K) :
    (R.encode q (some z) false false false).out = .ok (y, some w) ↔ R.encode1 q = .ok y ∧ LhsEncoded R q z w := by
  simp only [LhsEncoded, LhsLifted, LhsTransformed]
  cases hc : R.continuous with
  | false =>
    rw [C47_lhs_discrete R hc, C47_encode R z]
    rfl
  | true =>
    rw [C47_encode_ddts R hc, C47_encode R q]
    simp only [if_true]
    constructor
    · rintro ⟨L, E, X, F, ⟨h1, h2, h3⟩, h4, h5, h6⟩
      exact ⟨⟨L, X, h1, h2, h3⟩, E, F, h4, h5, h6⟩
    · rintro ⟨⟨L, X, h1, h2, h3⟩, E, F, h4, h5, h6⟩
      exact ⟨L, E, X, F, ⟨h1, h2, h3⟩, h4, h5, h6⟩

theorem liftedTo_unique (o : Option (LiftI K)) : Relator.RightUnique (LiftedTo o) := by
  intro a b c h1 h2
  cases o with
  | none => exact h1.trans h2.symm
  | some l => exact Except.ok.inj ((Eq.symm h1).trans h2)

theorem transformedTo_unique (o : Option (TfI K T × T)) : Relator.RightUnique (TransformedTo o) := by
  intro a b c h1 h2
  cases o with
  | none => exact h1.trans h2.symm
  | some l => exact Except.ok.inj ((Eq.symm h1).trans h2)

theorem forall₂_encode (R : Rom K T B) (qs Y : List (Snap K)) : Forall₂ (fun q y => R.encode1 q = .ok y) qs Y ↔
    ∃ Ls Xs, Forall₂ (LiftedTo R.lifter) qs Ls ∧ Forall₂ (TransformedTo R.transformer) Ls Xs ∧
      Forall₂ (CompressedTo R.basis) Xs Y := by
  simp only [C47_encode]
  have : (fun q y => ∃ L X, LiftedTo R.lifter q L ∧ TransformedTo R.transformer L X ∧ CompressedTo R.basis X y) =
      fun q y => ∃ L, LiftedTo R.lifter q L ∧ ∃ X, TransformedTo R.transformer L X ∧ CompressedTo R.basis X y := by
    funext q y
    simp only [exists_and_left]
  rw [this]
  simp only [forall₂_comp_iff, exists_and_left]

theorem forall₂_lhsEncoded (R : Rom K T B) (xs : List (Snap K × Snap K)) (W : List (Snap K)) :
    Forall₂ (fun x w => LhsEncoded R x.1 x.2 w) xs W ↔
    ∃ Es Fs, Forall₂ (fun (x : Snap K × Snap K) e => LhsLifted R x.1 x.2 e) xs Es ∧ Forall₂ (LhsTransformed R) Es Fs ∧
      Forall₂ (CompressedTo R.basis) Fs W := by
  have : (fun (x : Snap K × Snap K) w => LhsEncoded R x.1 x.2 w) =
      fun x w => ∃ E, LhsLifted R x.1 x.2 E ∧ ∃ F, LhsTransformed R E F ∧ CompressedTo R.basis F w := by
    funext x w
    simp only [LhsEncoded, exists_and_left]
  rw [this]
  simp only [forall₂_comp_iff, exists_and_left]

theorem lhsLifted_congr {R R' : Rom K T B} (h1 : R'.lifter = R.lifter) (h2 : R'.continuous = R.continuous) :
    LhsLifted R' = LhsLifted R := by
  funext q z e
  simp only [LhsLifted, h1, h2]

theorem lhsTransformed_congr {R R' : Rom K T B} (h1 : R'.transformer = R.transformer)
    (h2 : R'.continuous = R.continuous) : LhsTransformed R' = LhsTransformed R := by
  funext z e
  simp only [LhsTransformed, h1, h2]

theorem reduceTrain_steps (R R' : Rom K T B) (fitT fitB : Bool) (qs : List (Snap K)) (zs : Option (List (Snap K)))
    (Y : List (Snap K)) (Z : Option (List (Snap K))) : R.reduceTrain fitT fitB qs zs = (R', .ok (Y, Z)) ↔
      ∃ Ls Es R1 Xs Fs, R.liftTrain qs zs = .ok (Ls, Es) ∧ R.tfTrain fitT Ls Es = (R1, .ok (Xs, Fs)) ∧
        R1.basisTrain fitB Xs Fs = (R', .ok (Y, Z)) := by
  simp only [Rom.reduceTrain]
  cases h : R.liftTrain qs zs with
  | error e => simp
  | ok p =>
    obtain ⟨Ls, Es⟩ := p
    simp only [Except.ok.injEq, Prod.mk.injEq]
    rcases h1 : R.tfTrain fitT Ls Es with ⟨R1, e | ⟨Xs, Fs⟩⟩
    · simp only [Prod.mk.injEq]
      constructor
      · rintro ⟨_, h⟩; cases h
      · rintro ⟨_, _, _, _, _, ⟨rfl, rfl⟩, h, _⟩
        rw [h1] at h
        cases h
    · simp only
      constructor
      · intro h
        exact ⟨Ls, Es, R1, Xs, Fs, ⟨rfl, rfl⟩, h1, h⟩
      · rintro ⟨_, _, _, _, _, ⟨rfl, rfl⟩, h, h2⟩
        rw [h1] at h
        cases h
        exact h2

theorem reduceTrain_none (R R' : Rom K T B) (fitT fitB : Bool) (qs : List (Snap K)) (Y : List (Snap K))
    (Z : Option (List (Snap K))) : R.reduceTrain fitT fitB qs none = (R', .ok (Y, Z)) ↔
      Z = none ∧ Calibrated R R' fitT fitB qs ∧ Forall₂ (fun q y => R'.encode1 q = .ok y) qs Y := by
  rw [reduceTrain_steps, forall₂_encode]
  simp only [liftTrain_none, tfTrain_ok, basisTrain_ok]
  constructor
  · rintro ⟨Ls, Es, R1, Xs, Fs, ⟨rfl, h1⟩, ⟨⟨a1, a2, a3⟩, h2, h3, h4⟩, ⟨b1, b2, b3⟩, h5, h6, h7⟩
    cases h4
    cases h7
    refine ⟨rfl, ⟨b1.trans a1, b3.trans a3, Ls, Xs, h1, b2 ▸ h2, b2 ▸ h3, a2 ▸ h5⟩, Ls, Xs, ?_, b2 ▸ h3, h6⟩
    rw [b1, a1]
    exact h1
  · rintro ⟨rfl, ⟨c1, c2, Ls, Xs, h1, h2, h3, h4⟩, Ls', Xs', h5, h6, h7⟩
    rw [c1] at h5
    have e1 : Ls' = Ls := right_unique_forall₂' (liftedTo_unique _) h5 h1
    subst e1
    have e2 : Xs' = Xs := right_unique_forall₂' (transformedTo_unique _) h6 h3
    subst e2
    exact ⟨Ls', none, ⟨R.lifter, R'.transformer, R.basis, R.continuous⟩, Xs', none, ⟨rfl, h1⟩,
      ⟨⟨rfl, rfl, rfl⟩, h2, h3, .none⟩, ⟨c1, rfl, c2⟩, h4, h7, .none⟩

theorem reduceTrain_some (R R' : Rom K T B) (fitT fitB : Bool) (qs zs : List (Snap K))
    (hlen : zs.length = qs.length) (Y : List (Snap K))
    (Z : Option (List (Snap K))) : R.reduceTrain fitT fitB qs (some zs) = (R', .ok (Y, Z)) ↔
      ∃ W, Z = some W ∧ Calibrated R R' fitT fitB qs ∧ Forall₂ (fun q y => R'.encode1 q = .ok y) qs Y ∧
        Forall₂ (fun (x : Snap K × Snap K) w => LhsEncoded R' x.1 x.2 w) (zip qs zs) W := by
  rw [reduceTrain_steps]
  simp only [forall₂_encode, forall₂_lhsEncoded]
  simp only [liftTrain_some _ _ _ hlen, tfTrain_ok, basisTrain_ok]
  constructor
  · rintro ⟨Ls, Es, R1, Xs, Fs, ⟨E, rfl, h1, g1⟩, ⟨⟨a1, a2, a3⟩, h2, h3, h4⟩, ⟨b1, b2, b3⟩, h5, h6, h7⟩
    cases h4 with
    | @some _ F h4 =>
      cases h7 with
      | @some _ W h7 =>
        refine ⟨W, rfl, ⟨b1.trans a1, b3.trans a3, Ls, Xs, h1, b2 ▸ h2, b2 ▸ h3, a2 ▸ h5⟩,
          ⟨Ls, Xs, ?_, b2 ▸ h3, h6⟩, E, F, ?_, ?_, h7⟩
        · rw [b1, a1]
          exact h1
        · rw [lhsLifted_congr (b1.trans a1) (b3.trans a3)]
          exact g1
        · rw [lhsTransformed_congr b2 b3]
          exact h4
  · rintro ⟨W, rfl, ⟨c1, c2, Ls, Xs, h1, h2, h3, h4⟩, ⟨Ls', Xs', h5, h6, h7⟩, E, F, g1, g2, g3⟩
    rw [c1] at h5
    have e1 : Ls' = Ls := right_unique_forall₂' (liftedTo_unique _) h5 h1
    subst e1
    have e2 : Xs' = Xs := right_unique_forall₂' (transformedTo_unique _) h6 h3
    subst e2
    rw [lhsLifted_congr c1 c2] at g1
    refine ⟨Ls', some E, ⟨R.lifter, R'.transformer, R.basis, R.continuous⟩, Xs', some F, ⟨E, rfl, h1, g1⟩,
      ⟨⟨rfl, rfl, rfl⟩, h2, h3, .some ?_⟩, ⟨c1, rfl, c2⟩, h4, h7, .some g3⟩
    rw [lhsTransformed_congr (R := R') (R' := ⟨R.lifter, R'.transformer, R.basis, R.continuous⟩) rfl c2.symm]
    exact g2

theorem forall₂_of_zip_zip {α β γ δ : Type} {P : α → γ → Prop} {Q : α × β → δ → Prop} {as : List α} {bs : List β}
    {cs : List γ} {ds : List δ} (hb : bs.length = as.length) (hc : cs.length = as.length) (hd : ds.length = as.length)
    (h : Forall₂ (fun (x : α × β) (y : γ × δ) => P x.1 y.1 ∧ Q x y.2) (zip as bs) (zip cs ds)) :
    Forall₂ P as cs ∧ Forall₂ Q (zip as bs) ds := by
  induction as generalizing bs cs ds with
  | nil =>
    have h1 : bs = [] := length_eq_zero_iff.mp (by simpa using hb)
    have h2 : cs = [] := length_eq_zero_iff.mp (by simpa using hc)
    have h3 : ds = [] := length_eq_zero_iff.mp (by simpa using hd)
    subst h1 h2 h3
    exact ⟨.nil, .nil⟩
  | cons a as ih =>
    obtain _ | ⟨b, bs⟩ := bs
    · simp at hb
    obtain _ | ⟨c, cs⟩ := cs
    · simp at hc
    obtain _ | ⟨d, ds⟩ := ds
    · simp at hd
    rw [zip_cons_cons, zip_cons_cons, forall₂_cons] at h
    obtain ⟨h1, h2⟩ := ih (by simpa using hb) (by simpa using hc) (by simpa using hd) h.2
    exact ⟨.cons h.1.1 h1, .cons h.1.2 h2⟩

theorem process_eq (R R' : FRom K T B S) (qs : List (Snap K)) (lhs us : Option (List (Snap K))) (fitT fitB : Bool)
    (d : TrainData K) : R.process qs lhs us fitT fitB = (R', .ok d) ↔
      ∃ rom Y Z, R.rom.reduceTrain fitT fitB qs lhs = (rom, .ok (Y, Z)) ∧ R' = { R with rom := rom } ∧
        R'.lhsTrain Y Z us = .ok d := by
  rw [FRom.process]
  rcases h : R.rom.reduceTrain fitT fitB qs lhs with ⟨rom, e | ⟨Y, Z⟩⟩
  · simp only [Prod.mk.injEq]
    constructor
    · rintro ⟨_, h⟩; cases h
    · rintro ⟨_, _, _, ⟨_, h⟩, _⟩; cases h
  · simp only [Prod.mk.injEq, Except.ok.injEq]
    constructor
    · rintro ⟨rfl, h⟩
      exact ⟨rom, Y, Z, ⟨rfl, rfl, rfl⟩, rfl, h⟩
    · rintro ⟨_, _, _, ⟨rfl, rfl, rfl⟩, rfl, h⟩
      exact ⟨rfl, h⟩

/-- `R'` has the model and the estimator of `R`, and its other parts are those of `R` after training. -/
def FRom.Calibrated (R R' : FRom K T B S) (fitT fitB : Bool) (qs : List (Snap K)) : Prop :=
  R'.model = R.model ∧ R'.ddt = R.ddt ∧ Opinf.Calibrated R.rom R'.rom fitT fitB qs

/-! ### C69 -/

/-- **C69.** If left-hand sides are given, the training data are, trajectory by trajectory, what
`encode(states, lhs)` of the calibrated reduced-order model gives, with the inputs as given; the processing
succeeds exactly if the calibration and all these encodings do. -/
theorem C69_given_lhs (R R' : FRom K T B S) (qs zs : List (Snap K)) (hlen : zs.length = qs.length)
    (us : Option (List (Snap K))) (fitT fitB : Bool) (d : TrainData K) :
    R.process qs (some zs) us fitT fitB = (R', .ok d) ↔ R.Calibrated R' fitT fitB qs ∧ d.inputs = us ∧
      d.states.length = qs.length ∧ d.lhs.length = qs.length ∧
      Forall₂ (fun x y => (R'.rom.encode x.1 (some x.2) false false false).out = .ok (y.1, some y.2)) (zip qs zs)
        (zip d.states d.lhs) := by
  rw [process_eq]
  simp only [reduceTrain_some _ _ _ _ _ _ hlen, encode_both, FRom.Calibrated]
  constructor
  · rintro ⟨rom, Y, Z, ⟨W, rfl, h1, h2, h3⟩, rfl, h4⟩
    simp only [FRom.lhsTrain, Except.ok.injEq] at h4
    subst h4
    refine ⟨⟨rfl, rfl, h1⟩, rfl, h2.length_eq.symm, ?_, forall₂_zip_zip h2 h3⟩
    have := h3.length_eq
    rw [length_zip, hlen, Nat.min_self] at this
    exact this.symm
  · rintro ⟨⟨h1, h2, h3⟩, h4, h5, h6, h7⟩
    obtain ⟨g1, g2⟩ := forall₂_of_zip_zip (P := fun q y => R'.rom.encode1 q = .ok y)
      (Q := fun x w => LhsEncoded R'.rom x.1 x.2 w) hlen h5 h6 h7
    refine ⟨R'.rom, d.states, some d.lhs, ⟨d.lhs, rfl, h3, g1, g2⟩, ?_, ?_⟩
    · cases R'; simp only at *; simp [h1, h2]
    · simp only [FRom.lhsTrain, ← h4]

theorem shiftTrain_ok (es : List (Snap K)) (us : Option (List (Snap K))) (d : TrainData K) :
    shiftTrain es us = .ok d ↔ Forall₂ (fun e y => e.initCols = .ok y) es d.states ∧
      Forall₂ (fun e z => e.tailCols = .ok z) es d.lhs ∧
      d.inputs = us.map fun us => zipWith (fun Y U => U.firstCols Y.ncolumns) d.states us := by
  simp only [shiftTrain, ← mapM_ok_forall2]
  cases es.mapM Snap.tailCols with
  | error e => simp
  | ok Z =>
    cases es.mapM Snap.initCols with
    | error e => simp
    | ok Y =>
      obtain ⟨a, b, c⟩ := d
      simp only [Except.ok.injEq, TrainData.mk.injEq]
      constructor
      · rintro ⟨rfl, rfl, rfl⟩; exact ⟨rfl, rfl, rfl⟩
      · rintro ⟨rfl, rfl, rfl⟩; exact ⟨rfl, rfl, rfl⟩

/-- **C69.** For a fully discrete model without left-hand sides, the training data are, trajectory by trajectory,
the encoded states without the last one, the encoded states without the first one, and as many inputs. -/
theorem C69_discrete (R R' : FRom K T B S) (hc : R.rom.continuous = false) (qs : List (Snap K))
    (us : Option (List (Snap K))) (fitT fitB : Bool) (d : TrainData K) :
    R.process qs none us fitT fitB = (R', .ok d) ↔ R.Calibrated R' fitT fitB qs ∧
      ∃ es, Forall₂ (fun q e => R'.rom.encode1 q = .ok e) qs es ∧
        Forall₂ (fun e y => e.initCols = .ok y) es d.states ∧ Forall₂ (fun e z => e.tailCols = .ok z) es d.lhs ∧
        d.inputs = us.map fun us => zipWith (fun Y U => U.firstCols Y.ncolumns) d.states us := by
  rw [process_eq]
  simp only [reduceTrain_none, FRom.Calibrated]
  constructor
  · rintro ⟨rom, Y, Z, ⟨rfl, h1, h2⟩, rfl, h4⟩
    simp only [FRom.lhsTrain, h1.2.1, hc, Bool.false_eq_true, if_false, shiftTrain_ok] at h4
    exact ⟨⟨rfl, rfl, h1⟩, Y, h2, h4⟩
  · rintro ⟨⟨h1, h2, h3⟩, es, h4, h5⟩
    refine ⟨R'.rom, es, none, ⟨rfl, h3, h4⟩, ?_, ?_⟩
    · cases R'; simp only at *; simp [h1, h2]
    · simp only [FRom.lhsTrain, h3.2.1, hc, Bool.false_eq_true, if_false, shiftTrain_ok]
      exact h5

/-- **C69.** What the shifted arrays contain: for a trajectory whose encoding has the columns `e_0, .., e_{k-1}`, the
states are `e_0, .., e_{k-2}` and the left-hand sides `e_1, .., e_{k-1}`; the inputs are the first of those given. -/
theorem C69_discrete_columns [Zero K] (e y z u : Snap K) (he : e.WF) (hu : u.WF) (hy : e.initCols = .ok y)
    (hz : e.tailCols = .ok z) : y.WF ∧ z.WF ∧ (u.firstCols y.ncolumns).WF ∧
      y.columnList = e.columnList.dropLast ∧ z.columnList = e.columnList.tail ∧
      (u.firstCols y.ncolumns).columnList = u.columnList.take (e.columnList.length - 1) := by
  obtain ⟨h1, h2⟩ := initCols_ok he hy
  obtain ⟨h3, h4⟩ := tailCols_ok he hz
  obtain ⟨h5, h6⟩ := firstCols_columns y.ncolumns u hu
  refine ⟨h1, h3, h5, h2, h4, ?_⟩
  rw [h6, ← columnList_length, h2, length_dropLast]

/-- **C69.** For a time-continuous model without left-hand sides and inputs, the training data are, trajectory by
trajectory, what the estimator makes of the encoded states. -/
theorem C69_estimated (R R' : FRom K T B S) (hc : R.rom.continuous = true) (E : DdtI K) (hE : R.ddt = some E)
    (qs : List (Snap K)) (fitT fitB : Bool) (d : TrainData K) :
    R.process qs none none fitT fitB = (R', .ok d) ↔ R.Calibrated R' fitT fitB qs ∧ d.inputs = none ∧ qs ≠ [] ∧
      ∃ es xs, Forall₂ (fun q e => R'.rom.encode1 q = .ok e) qs es ∧ Forall₂ (fun e x => E.estimate e = .ok x) es xs ∧
        d.states = xs.map Prod.fst ∧ d.lhs = xs.map Prod.snd := by
  rw [process_eq]
  simp only [reduceTrain_none, FRom.Calibrated]
  constructor
  · rintro ⟨rom, Y, Z, ⟨rfl, h1, h2⟩, rfl, h4⟩
    simp only [FRom.lhsTrain, h1.2.1, hc, if_true, hE, estimateTrain] at h4
    refine ⟨⟨rfl, hE ▸ rfl, h1⟩, ?_⟩
    cases hx : Y.mapM E.estimate with
    | error e => rw [hx] at h4; cases h4
    | ok xs =>
      rw [hx] at h4
      rw [mapM_ok_forall2] at hx
      cases xs with
      | nil => cases h4
      | cons x xs =>
        simp only [Except.ok.injEq] at h4
        subst h4
        refine ⟨rfl, ?_, Y, x :: xs, h2, hx, rfl, rfl⟩
        rintro rfl
        have := h2.length_eq
        have := hx.length_eq
        simp_all
  · rintro ⟨⟨h1, h2, h3⟩, h4, hne, es, xs, h5, h6, h7, h8⟩
    refine ⟨R'.rom, es, none, ⟨rfl, h3, h5⟩, ?_, ?_⟩
    · cases R'; simp only at *; simp [h1, h2]
    · simp only [FRom.lhsTrain, h3.2.1, hc, if_true, h2, hE, estimateTrain]
      rw [mapM_ok_forall2.mpr h6]
      cases xs with
      | nil =>
        exfalso
        apply hne
        have e1 := h5.length_eq
        have e2 := h6.length_eq
        exact length_eq_zero_iff.mp (by rw [e1, e2]; rfl)
      | cons x xs =>
        obtain ⟨a, b, c⟩ := d
        simp only at h4 h7 h8 ⊢
        rw [h4, h7, h8]

/-- **C69.** The same with inputs, as many of them as trajectories. -/
theorem C69_estimated_inputs (R R' : FRom K T B S) (hc : R.rom.continuous = true) (E : DdtI K) (hE : R.ddt = some E)
    (qs us : List (Snap K)) (hlen : us.length = qs.length) (fitT fitB : Bool) (d : TrainData K) :
    R.process qs none (some us) fitT fitB = (R', .ok d) ↔ R.Calibrated R' fitT fitB qs ∧ qs ≠ [] ∧
      ∃ es xs, Forall₂ (fun q e => R'.rom.encode1 q = .ok e) qs es ∧
        Forall₂ (fun (x : Snap K × Snap K) y => E.estimateWith x.1 x.2 = .ok y) (zip es us) xs ∧
        d.states = xs.map (fun x => x.1) ∧ d.lhs = xs.map (fun x => x.2.1) ∧
        d.inputs = some (xs.map fun x => x.2.2) := by
  rw [process_eq]
  simp only [reduceTrain_none, FRom.Calibrated]
  constructor
  · rintro ⟨rom, Y, Z, ⟨rfl, h1, h2⟩, rfl, h4⟩
    simp only [FRom.lhsTrain, h1.2.1, hc, if_true, hE, estimateTrain] at h4
    refine ⟨⟨rfl, hE ▸ rfl, h1⟩, ?_⟩
    cases hx : (zip Y us).mapM fun x => E.estimateWith x.1 x.2 with
    | error e => rw [hx] at h4; cases h4
    | ok xs =>
      rw [hx] at h4
      rw [mapM_ok_forall2] at hx
      cases xs with
      | nil => cases h4
      | cons x xs =>
        simp only [Except.ok.injEq] at h4
        subst h4
        refine ⟨?_, Y, x :: xs, h2, hx, rfl, rfl, rfl⟩
        rintro rfl
        have := h2.length_eq
        have := hx.length_eq
        simp_all
  · rintro ⟨⟨h1, h2, h3⟩, hne, es, xs, h5, h6, h7, h8, h9⟩
    refine ⟨R'.rom, es, none, ⟨rfl, h3, h5⟩, ?_, ?_⟩
    · cases R'; simp only at *; simp [h1, h2]
    · simp only [FRom.lhsTrain, h3.2.1, hc, if_true, h2, hE, estimateTrain]
      rw [mapM_ok_forall2.mpr h6]
      cases xs with
      | nil =>
        exfalso
        apply hne
        have e1 := h5.length_eq
        have e2 := h6.length_eq
        rw [length_zip, hlen, ← e1, Nat.min_self] at e2
        exact length_eq_zero_iff.mp e2
      | cons x xs =>
        obtain ⟨a, b, c⟩ := d
        simp only at h7 h8 h9 ⊢
        rw [h7, h8, h9]

/-- **C69.** What "side by side" means: the concatenation has the columns of the first trajectory, then those of the
second one, and so on; all trajectories must have equally many rows. -/
theorem C69_stacked_columns [Zero K] (Qs : List (Snap K)) (Q : Snap K) (hQ : ∀ X ∈ Qs, X.WF)
    (h : hstackAll Qs = .ok Q) :
    Q.WF ∧ Q.columnList = Qs.flatMap Snap.columnList ∧ ∀ X ∈ Qs, X.nrows = Q.nrows := hstackAll_ok hQ h

/-- **C69.** Left-hand sides that cannot be estimated, or inputs that the model needs, raise ValueError before
anything is changed. -/
theorem C69_missing [CommRing K] (I : SolverI K S) (R : FRom K T B S) (states : TrainArg K)
    (lhs inputs : Option (TrainArg K)) (fitT fitB : Bool)
    (h : (lhs = none ∧ R.rom.continuous = true ∧ R.ddt = none) ∨ (inputs = none ∧ R.model.hasInputs = true)) :
    R.fit I states lhs inputs fitT fitB = (R, .error .value) := by
  have : R.checkFitArgs lhs.isNone inputs.isNone = .error .value := by
    rw [FRom.checkFitArgs]
    rcases h with ⟨rfl, h1, h2⟩ | ⟨rfl, h1⟩
    · simp [h1, h2]
    · split
      · rfl
      · simp [h1]
  rw [FRom.fit, this]

/-- **C69.** One trajectory is the same as a list of one trajectory. -/
theorem C69_single [CommRing K] (I : SolverI K S) (R : FRom K T B S) (Q : Snap K) (Z U : Option (Snap K))
    (fitT fitB : Bool) : R.fit I (.one Q) (Z.map .one) (U.map .one) fitT fitB =
      R.fit I (.many [Q]) (Z.map fun z => .many [z]) (U.map fun u => .many [u]) fitT fitB := by
  have : fixLists (.one Q) (Z.map .one) (U.map .one) =
      fixLists (.many [Q]) (Z.map fun z => .many [z]) (U.map fun u => .many [u]) := by
    cases Z <;> cases U <;> rfl
  simp only [FRom.fit, this, Option.isNone_map]

/-- **C69.** Lists of trajectories, left-hand sides and inputs are used as they are given. -/
theorem C69_lists [CommRing K] (I : SolverI K S) (R : FRom K T B S) (qs : List (Snap K)) (hq : qs ≠ [])
    (zs us : Option (List (Snap K))) (fitT fitB : Bool) (hc : R.checkFitArgs zs.isNone us.isNone = .ok ()) :
    R.fit I (.many qs) (zs.map .many) (us.map .many) fitT fitB = R.fitLists I qs zs us fitT fitB := by
  have : fixLists (.many qs) (zs.map .many) (us.map .many) = .ok (qs, zs, us) := by
    cases qs with
    | nil => exact absurd rfl hq
    | cons q qs => cases zs <;> cases us <;> rfl
  simp only [FRom.fit, this, Option.isNone_map, hc]

/-- **C69.** Training with one trajectory calibrates the transformer and the basis as
`encode(fit_transformer=True, fit_basis=True)` does, and uses the states that this returns. -/
theorem C69_one_trajectory (R : Rom K T B) (hT : ∀ I t, R.transformer = some (I, t) → I.FitsThenTransforms t)
    (q z : Snap K) (inplace : Bool) (L : Snap K) (n : Nat) (c : Option Nat) (hL : LiftedTo R.lifter q L)
    (hs : L.Shaped n c) (h : (R.encode q none inplace true true).out = .ok (z, none)) :
    R.reduceTrain true true [q] none = ((R.encode q none inplace true true).rom, .ok ([z], none)) := by
  have hlift : R.liftStep q none = .ok (L, none) := by
    cases hl : R.lifter with
    | none => rw [hl] at hL; cases hL; simp [Rom.liftStep, hl]
    | some l =>
      rw [hl] at hL
      simp only [LiftedTo] at hL
      simp [Rom.liftStep, hl, hL, bind, Except.bind, pure, Except.pure]
  have hlt : R.liftTrain [q] none = .ok ([L], none) := by
    rw [liftTrain_none]
    exact ⟨rfl, .cons hL .nil⟩
  have hbas : ∀ (R' : Rom K T B) (X : Snap K), (R'.basisStep true X none).2 = .ok (z, none) →
      R'.basisTrain true [X] none = ((R'.basisStep true X none).1, .ok ([z], none)) := by
    intro R' X hx
    cases hB : R'.basis with
    | none =>
      simp only [Rom.basisStep, hB, Except.ok.injEq, Prod.mk.injEq, and_true] at hx ⊢
      subst hx
      simp [Rom.basisTrain, hB]
    | some Ib =>
      obtain ⟨I, b⟩ := Ib
      simp only [Rom.basisStep, hB, if_true] at hx ⊢
      simp only [Rom.basisTrain, hB, fitStacked, if_true, hstackAll]
      rcases hf : I.fit b X with ⟨b', _ | u⟩
      · rw [hf] at hx; cases hx
      · rw [hf] at hx
        simp only [compressBoth] at hx ⊢
        cases hc : I.compress b' X with
        | error e => rw [hc] at hx; cases hx
        | ok Y =>
          rw [hc] at hx
          simp only [Except.ok.injEq, Prod.mk.injEq, and_true] at hx
          subst hx
          have : onBoth (I.compress b') (I.compress b') [X] none = .ok ([Y], none) := by
            rw [onBoth_ok]
            exact ⟨.cons hc .nil, .none⟩
          rw [this]
  rw [Rom.reduceTrain, hlt]
  simp only [Rom.encode, hlift] at h ⊢
  cases ht : R.transformer with
  | none =>
    simp only [Rom.tfStep, ht] at h ⊢
    simp only [Rom.tfTrain, ht]
    exact hbas _ _ h
  | some It =>
    obtain ⟨I, t⟩ := It
    simp only [Rom.tfStep, ht, tfStates, if_true] at h ⊢
    rcases hf : I.fitTransform t inplace L with ⟨t', L', _ | X⟩
    · rw [hf] at h; cases h
    · rw [hf] at h
      simp only at h ⊢
      obtain ⟨-, -, f3, -, f5⟩ := hT I t ht L n c inplace t' L' X hs hf
      simp only [Rom.tfTrain, ht, fitStacked, if_true, hstackAll, f3]
      have : onBoth (fun Q => (I.transform t' false Q).2) (fun Z => (tfLhs I t' false R.continuous Z).2) [L] none =
          .ok ([X], none) := by
        rw [onBoth_ok]
        exact ⟨.cons (by rw [f5 false]; rfl) .nil, .none⟩
      rw [this]
      exact hbas _ _ h

end Opinf
