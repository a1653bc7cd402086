import Verif.Props.RomFitOptimal
import Verif.Props.TrainOrder

/-!
# C110: the order of the trajectories does not matter for training a reduced-order model
-/

namespace Opinf

open List

variable {K T B S : Type}

/-! ### Specification -/

/-- One training trajectory: states, left-hand sides and inputs. Left-hand sides and inputs are used only if they are
passed to `fit`. -/
structure TrajArgs (K : Type) where
  q : Snap K
  z : Snap K
  u : Snap K

/-- An argument that is passed only if `b` holds. -/
def passIf {α : Type} (b : Bool) (a : α) : Option α := if b then some a else none

/-- The processing of the trajectories `xs`. -/
def FRom.processAll (R : FRom K T B S) (hasL hasU fitT fitB : Bool) (xs : List (TrajArgs K)) :
    FRom K T B S × Except Err (TrainData K) :=
  R.process (xs.map TrajArgs.q) (passIf hasL (xs.map TrajArgs.z)) (passIf hasU (xs.map TrajArgs.u)) fitT fitB

/-- `fit` with the trajectories `xs`. -/
def FRom.fitAll [CommRing K] (R : FRom K T B S) (I : SolverI K S) (hasL hasU fitT fitB : Bool) (xs : List (TrajArgs K)) :
    FRom K T B S × Except Err Unit :=
  R.fit I (.many (xs.map TrajArgs.q)) (passIf hasL (.many (xs.map TrajArgs.z)))
    (passIf hasU (.many (xs.map TrajArgs.u))) fitT fitB

/-- Trajectories as training data. -/
def asData (hasU : Bool) (ts : List (TrajArgs K)) : TrainData K :=
  ⟨ts.map TrajArgs.q, ts.map TrajArgs.z, passIf hasU (ts.map TrajArgs.u)⟩

/-! ### Trajectory by trajectory -/

theorem compFitted_self {X J : Type} (fit : J → X → Snap K → X × Except Err Unit) (Qs : List (Snap K))
    (o : Option (J × X)) : CompFitted fit false Qs o o := by
  cases o with
  | none => rfl
  | some p => exact ⟨p.2, rfl, by simp [FittedOn]⟩

theorem compFitted_same {X J : Type} {fit : J → X → Snap K → X × Except Err Unit} {Qs : List (Snap K)}
    {o o' : Option (J × X)} (h : CompFitted fit false Qs o o') : o' = o := by
  cases o with
  | none => exact h
  | some p =>
    obtain ⟨x', h1, h2⟩ := h
    simp only [FittedOn, Bool.false_eq_true, if_false] at h2
    rw [h1, h2]

/-- Without refitting, the calibrated parts are the old ones. -/
theorem calibrated_same {R R' : Rom K T B} {qs : List (Snap K)} (h : Calibrated R R' false false qs) : R' = R := by
  obtain ⟨h1, h2, Ls, Xs, -, h3, -, h4⟩ := h
  have h3 := compFitted_same h3
  have h4 := compFitted_same h4
  cases R
  cases R'
  simp_all

theorem calibrated_self (R : Rom K T B) {q y : Snap K} (h : R.encode1 q = .ok y) : Calibrated R R false false [q] := by
  obtain ⟨Ls, Xs, h1, h2, -⟩ := (forall₂_encode R [q] [y]).1 (.cons h .nil)
  exact ⟨rfl, rfl, Ls, Xs, h1, compFitted_self _ _ _, h2, compFitted_self _ _ _⟩

theorem zip_fields {α β γ : Type} (f : α → β) (g : α → γ) (xs : List α) :
    zip (xs.map f) (xs.map g) = xs.map fun x => (f x, g x) := by
  induction xs with
  | nil => rfl
  | cons x xs ih => simp [ih]

/-- The encoding of several trajectories, one by one. -/
theorem reduceTrain_each (R R' : Rom K T B) (hasL fitT fitB : Bool) (xs : List (TrajArgs K)) (Y : List (Snap K))
    (Z : Option (List (Snap K)))
    (h : R.reduceTrain fitT fitB (xs.map TrajArgs.q) (passIf hasL (xs.map TrajArgs.z)) = (R', .ok (Y, Z))) :
    Calibrated R R' fitT fitB (xs.map TrajArgs.q) ∧
    ∃ ys : List (TrajArgs K), Y = ys.map TrajArgs.q ∧ Z = passIf hasL (ys.map TrajArgs.z) ∧
      ys.map TrajArgs.u = xs.map TrajArgs.u ∧
      Forall₂ (fun x y => y.u = x.u ∧ R'.reduceTrain false false [x.q] (passIf hasL [x.z]) =
        (R', .ok ([y.q], passIf hasL [y.z]))) xs ys := by
  cases hasL with
  | false =>
    rw [show passIf false (xs.map TrajArgs.z) = none from rfl, reduceTrain_none] at h
    obtain ⟨rfl, h1, h2⟩ := h
    refine ⟨h1, ?_⟩
    clear h1
    rw [forall₂_map_left_iff] at h2
    induction h2 with
    | nil => exact ⟨[], rfl, rfl, rfl, .nil⟩
    | @cons x y xs Y hxy _ ih =>
      obtain ⟨ys, rfl, -, h3, h4⟩ := ih
      refine ⟨⟨y, x.z, x.u⟩ :: ys, rfl, rfl, by rw [map_cons, map_cons, h3], .cons ⟨rfl, ?_⟩ h4⟩
      rw [show passIf false [x.z] = none from rfl, reduceTrain_none]
      exact ⟨rfl, calibrated_self R' hxy, .cons hxy .nil⟩
  | true =>
    rw [show passIf true (xs.map TrajArgs.z) = some (xs.map TrajArgs.z) from rfl,
      reduceTrain_some _ _ _ _ _ _ (by simp)] at h
    obtain ⟨W, rfl, h1, h2, h3⟩ := h
    refine ⟨h1, ?_⟩
    clear h1
    rw [forall₂_map_left_iff] at h2
    rw [zip_fields, forall₂_map_left_iff] at h3
    induction h2 generalizing W with
    | nil =>
      cases h3
      exact ⟨[], rfl, rfl, rfl, .nil⟩
    | @cons x y xs Y hxy _ ih =>
      cases h3 with
      | @cons _ w _ W hw h3 =>
      obtain ⟨ys, rfl, h5, h6, h4⟩ := ih W h3
      have h5 : W = ys.map TrajArgs.z := Option.some.inj h5
      refine ⟨⟨y, w, x.u⟩ :: ys, rfl, by rw [h5]; rfl, by rw [map_cons, map_cons, h6], .cons ⟨rfl, ?_⟩ h4⟩
      rw [show passIf true [x.z] = some [x.z] from rfl, reduceTrain_some _ _ _ _ _ _ (by simp)]
      exact ⟨[w], rfl, calibrated_self R' hxy, .cons hxy .nil, .cons hw .nil⟩

/-- The left-hand sides of several trajectories, one by one. -/
theorem lhsTrain_each (R : FRom K T B S) (hasL hasU : Bool) (ys : List (TrajArgs K)) (d : TrainData K)
    (h : R.lhsTrain (ys.map TrajArgs.q) (passIf hasL (ys.map TrajArgs.z)) (passIf hasU (ys.map TrajArgs.u)) = .ok d) :
    ∃ ts : List (TrajArgs K), d = asData hasU ts ∧
      Forall₂ (fun y t => R.lhsTrain [y.q] (passIf hasL [y.z]) (passIf hasU [y.u]) = .ok (asData hasU [t])) ys ts := by
  cases hasL with
  | true =>
    simp only [passIf, if_true, FRom.lhsTrain, Except.ok.injEq] at h
    refine ⟨ys, h.symm, ?_⟩
    rw [forall₂_same]
    intro y _
    simp only [passIf, if_true, FRom.lhsTrain, asData, map_cons, map_nil]
  | false =>
    simp only [passIf, Bool.false_eq_true, if_false, FRom.lhsTrain] at h ⊢
    cases hc : R.rom.continuous with
    | false =>
      simp only [hc, Bool.false_eq_true, if_false, shiftTrain_ok] at h ⊢
      obtain ⟨h1, h2, h3⟩ := h
      obtain ⟨Y, Z, U⟩ := d
      simp only at h1 h2 h3
      subst h3
      rw [forall₂_map_left_iff] at h1 h2
      induction h1 generalizing Z with
      | nil =>
        cases h2
        exact ⟨[], by cases hasU <;> rfl, .nil⟩
      | @cons y a ys Y hy _ ih =>
        cases h2 with
        | @cons _ b _ Z hb h2 =>
        obtain ⟨ts, e, h4⟩ := ih Z h2
        refine ⟨⟨a, b, y.u.firstCols a.ncolumns⟩ :: ts, ?_, .cons ⟨.cons hy .nil, .cons hb .nil, ?_⟩ h4⟩
        · simp only [asData, TrainData.mk.injEq] at e
          obtain ⟨rfl, rfl, e⟩ := e
          simp only [asData, map_cons, TrainData.mk.injEq, true_and]
          cases hasU with
          | false => rfl
          | true =>
            simp only [passIf, if_true, Option.map_some, Option.some.injEq] at e ⊢
            rw [zipWith_cons_cons, e]
        · cases hasU <;> rfl
    | true =>
      simp only [hc, if_true] at h ⊢
      cases hE : R.ddt with
      | none => rw [hE] at h; cases h
      | some E =>
        simp only [hE] at h ⊢
        cases hasU with
        | false =>
          simp only [Bool.false_eq_true, if_false, estimateTrain] at h ⊢
          cases hm : (ys.map TrajArgs.q).mapM E.estimate with
          | error e => rw [hm] at h; cases h
          | ok xs =>
            have h' : d = ⟨xs.map Prod.fst, xs.map Prod.snd, none⟩ := by
              rw [hm] at h
              cases xs with
              | nil => cases h
              | cons x xs => exact (Except.ok.inj h).symm
            rw [mapM_ok_forall2, forall₂_map_left_iff] at hm
            subst h'
            clear h
            induction hm with
            | nil => exact ⟨[], rfl, .nil⟩
            | @cons y x ys xs hy _ ih =>
              obtain ⟨ts, e, h4⟩ := ih
              simp only [asData, TrainData.mk.injEq] at e
              refine ⟨⟨x.1, x.2, y.u⟩ :: ts, ?_, .cons ?_ h4⟩
              · simp [asData, e.1, e.2.1, passIf]
              · have : [y.q].mapM E.estimate = .ok [x] := mapM_ok_forall2.2 (.cons hy .nil)
                rw [this]
                rfl
        | true =>
          simp only [if_true, estimateTrain, zip_fields] at h ⊢
          cases hm : (ys.map fun y => (y.q, y.u)).mapM fun x => E.estimateWith x.1 x.2 with
          | error e => rw [hm] at h; cases h
          | ok xs =>
            have h' : d = ⟨xs.map fun x => x.1, xs.map fun x => x.2.1, some (xs.map fun x => x.2.2)⟩ := by
              rw [hm] at h
              cases xs with
              | nil => cases h
              | cons x xs => exact (Except.ok.inj h).symm
            rw [mapM_ok_forall2, forall₂_map_left_iff] at hm
            subst h'
            clear h
            induction hm with
            | nil => exact ⟨[], rfl, .nil⟩
            | @cons y x ys xs hy _ ih =>
              obtain ⟨ts, e, h4⟩ := ih
              simp only [asData, TrainData.mk.injEq, passIf, if_true, Option.some.injEq] at e
              refine ⟨⟨x.1, x.2.1, x.2.2⟩ :: ts, ?_, .cons ?_ h4⟩
              · simp [asData, e.1, e.2.1, e.2.2, passIf]
              · have : (zip [y.q] [y.u]).mapM (fun x => E.estimateWith x.1 x.2) = .ok [x] :=
                  mapM_ok_forall2.2 (.cons hy .nil)
                rw [this]
                rfl

/-- **C110** (trajectory by trajectory). The data made of several trajectories consist of the data that the calibrated
reduced-order model makes of each trajectory alone. -/
theorem C110_each_alone (R R' : FRom K T B S) (hasL hasU fitT fitB : Bool) (xs : List (TrajArgs K)) (d : TrainData K)
    (h : R.processAll hasL hasU fitT fitB xs = (R', .ok d)) :
    ∃ ts, d = asData hasU ts ∧
      Forall₂ (fun x t => R'.processAll hasL hasU false false [x] = (R', .ok (asData hasU [t]))) xs ts := by
  rw [FRom.processAll, process_eq] at h
  obtain ⟨rom, Y, Z, h1, rfl, h2⟩ := h
  obtain ⟨-, ys, rfl, rfl, h3, h4⟩ := reduceTrain_each _ _ _ _ _ _ _ _ h1
  rw [← h3] at h2
  obtain ⟨ts, rfl, h5⟩ := lhsTrain_each _ _ _ _ _ h2
  refine ⟨ts, rfl, ?_⟩
  have := forall₂_comp_iff.2 ⟨ys, h4, h5⟩
  refine this.imp ?_
  rintro x t ⟨y, ⟨g1, g2⟩, g3⟩
  rw [FRom.processAll, process_eq]
  exact ⟨rom, [y.q], _, g2, rfl, by rw [← g3, g1]; rfl⟩

/-- Processing keeps the model and the estimator, and without refitting everything. -/
theorem process_keeps_rest (R R' : FRom K T B S) (hasL hasU fitT fitB : Bool) (xs : List (TrajArgs K)) (d : TrainData K)
    (h : R.processAll hasL hasU fitT fitB xs = (R', .ok d)) :
    R' = { R with rom := R'.rom } ∧ (fitT = false ∧ fitB = false → R' = R) := by
  rw [FRom.processAll, process_eq] at h
  obtain ⟨rom, Y, Z, h1, rfl, -⟩ := h
  obtain ⟨h2, -⟩ := reduceTrain_each _ _ _ _ _ _ _ _ h1
  refine ⟨rfl, ?_⟩
  rintro ⟨rfl, rfl⟩
  rw [calibrated_same h2]

/-! ### Data in another order -/

theorem asData_samples [Zero K] (hasU : Bool) (ts : List (TrajArgs K)) :
    (asData hasU ts).samples = ts.flatMap fun t => trajSamples t.q t.z (passIf hasU t.u) := by
  have : zip (asData hasU ts).states (zip (asData hasU ts).lhs (inputList (asData hasU ts).states.length
      (asData hasU ts).inputs)) = ts.map fun t => (t.q, t.z, passIf hasU t.u) := by
    simp only [asData]
    cases hasU with
    | false =>
      induction ts with
      | nil => rfl
      | cons t ts ih =>
        simp only [passIf, Bool.false_eq_true, if_false, inputList, map_cons, length_cons, replicate_succ,
          zip_cons_cons, cons.injEq, true_and] at ih ⊢
        exact ih
    | true =>
      induction ts with
      | nil => rfl
      | cons t ts ih =>
        simp only [passIf, if_true, inputList, map_cons, zip_cons_cons, cons.injEq, true_and] at ih ⊢
        exact ih
  rw [TrainData.samples, this, flatMap_map]

/-- The arrays of one trajectory are aligned. -/
def TrajArgs.Aligned (hasU : Bool) (t : TrajArgs K) : Prop :=
  t.q.WF ∧ t.z.WF ∧ t.z.ncolumns = t.q.ncolumns ∧ (hasU = true → t.u.WF ∧ t.u.ncolumns = t.q.ncolumns)

theorem map_eq_map_iff_mem {α β : Type} (f g : α → β) (l : List α) : l.map f = l.map g ↔ ∀ a ∈ l, f a = g a :=
  map_inj_left

theorem asData_aligned (hasU : Bool) (ts : List (TrajArgs K)) :
    (asData hasU ts).Aligned ↔ ∀ t ∈ ts, t.Aligned hasU := by
  constructor
  · rintro ⟨h1, h2, h3, h4, h5⟩ t ht
    simp only [asData, map_map] at h1 h2 h3 h4 h5
    refine ⟨h1 _ (mem_map_of_mem ht), h2 _ (mem_map_of_mem ht), map_inj_left.1 h4 t ht, ?_⟩
    rintro rfl
    refine ⟨h3 _ rfl _ (mem_map_of_mem ht), ?_⟩
    have := h5 _ rfl
    rw [map_map] at this
    exact map_inj_left.1 this t ht
  · intro h
    refine ⟨?_, ?_, ?_, ?_, ?_⟩
    · rintro _ hY
      obtain ⟨t, ht, rfl⟩ := mem_map.1 hY
      exact (h t ht).1
    · rintro _ hY
      obtain ⟨t, ht, rfl⟩ := mem_map.1 hY
      exact (h t ht).2.1
    · cases hasU with
      | false => rintro us hus; cases hus
      | true =>
        rintro us hus U hU
        cases hus
        obtain ⟨t, ht, rfl⟩ := mem_map.1 hU
        exact ((h t ht).2.2.2 rfl).1
    · simp only [asData, map_map]
      exact map_inj_left.2 fun t ht => (h t ht).2.2.1
    · cases hasU with
      | false => rintro us hus; cases hus
      | true =>
        rintro us hus
        cases hus
        simp only [asData, map_map]
        exact map_inj_left.2 fun t ht => ((h t ht).2.2.2 rfl).2

/-- **C110** (the training data). The same trajectories in another order give the same data in another order. -/
theorem C110_data (R R₁ R₂ : FRom K T B S) (hasL hasU fitT fitB : Bool) (xs ys : List (TrajArgs K)) (hxy : xs.Perm ys)
    (d₁ d₂ : TrainData K) (h₁ : R.processAll hasL hasU fitT fitB xs = (R₁, .ok d₁))
    (h₂ : R.processAll hasL hasU fitT fitB ys = (R₂, .ok d₂))
    (hrom : fitT = false ∧ fitB = false ∨ R₂.rom = R₁.rom) :
    R₂ = R₁ ∧ ∃ ts ts' : List (TrajArgs K), ts.Perm ts' ∧ d₁ = asData hasU ts ∧ d₂ = asData hasU ts' := by
  obtain ⟨a1, a2⟩ := process_keeps_rest _ _ _ _ _ _ _ _ h₁
  obtain ⟨b1, b2⟩ := process_keeps_rest _ _ _ _ _ _ _ _ h₂
  have hR : R₂ = R₁ := by
    rcases hrom with h | h
    · rw [a2 h, b2 h]
    · rw [a1, b1, h]
  subst hR
  refine ⟨rfl, ?_⟩
  obtain ⟨ts, rfl, h3⟩ := C110_each_alone _ _ _ _ _ _ _ _ h₁
  obtain ⟨ts', rfl, h4⟩ := C110_each_alone _ _ _ _ _ _ _ _ h₂
  obtain ⟨ts'', h5, h6⟩ := perm_comp_forall₂ hxy.symm h3
  have : asData hasU ts'' = asData hasU ts' := by
    have hh : Forall₂ (fun t t' => asData hasU [t] = asData hasU [t']) ts'' ts' := by
      clear * - h5 h4
      induction h5 generalizing ts' with
      | nil => cases h4; exact .nil
      | cons hxt _ ih =>
        cases h4 with
        | cons hxt' h4 =>
          refine .cons ?_ (ih _ h4)
          rw [hxt] at hxt'
          exact Except.ok.inj (congrArg Prod.snd hxt')
    clear * - hh
    induction hh with
    | nil => rfl
    | cons e _ ih =>
      simp only [asData, map_cons, map_nil, TrainData.mk.injEq, cons.injEq, and_true] at e ih ⊢
      refine ⟨⟨e.1, ih.1⟩, ⟨e.2.1, ih.2.1⟩, ?_⟩
      cases hasU with
      | false => rfl
      | true =>
        simp only [passIf, if_true, Option.some.injEq, cons.injEq, and_true] at e ih ⊢
        exact ⟨e.2.2, ih.2.2⟩
  exact ⟨ts, ts'', h6.symm, rfl, this.symm⟩

/-! ### Training -/

section

variable [Field K] [LinearOrder K] [IsStrictOrderedRing K]

omit [LinearOrder K] [IsStrictOrderedRing K] in
/-- A successful training, as a training of the model. -/
theorem fitAll_training (I : SolverI K S) (R R' : FRom K T B S) (hM : R.model.Inv) (hint : R.model.intrusive = false)
    (hasL hasU fitT fitB : Bool) (xs : List (TrajArgs K)) (h : R.fitAll I hasL hasU fitT fitB xs = (R', .ok ())) :
    ∃ R1 d, R.processAll hasL hasU fitT fitB xs = (R1, .ok d) ∧ R'.rom = R1.rom ∧ R'.ddt = R1.ddt ∧
      ∀ r m : Nat, 0 < r → d.Aligned → (∀ Y ∈ d.states, Y.nrows = r) → (∀ us ∈ d.inputs, ∀ U ∈ us, U.nrows = m) →
        ∃ t : Training K S, t.before = R.model ∧ t.after = R'.model ∧ t.samples = d.samples ∧ t.Done I r m := by
  have hne : xs ≠ [] := by
    rintro rfl
    rw [FRom.fitAll, FRom.fit] at h
    cases hc : R.checkFitArgs (passIf hasL (TrainArg.many (([] : List (TrajArgs K)).map TrajArgs.z))).isNone
        (passIf hasU (TrainArg.many (([] : List (TrajArgs K)).map TrajArgs.u))).isNone with
    | error e => rw [hc] at h; cases h
    | ok _ => rw [hc] at h; cases h
  have hl : fixLists (.many (xs.map TrajArgs.q)) (passIf hasL (.many (xs.map TrajArgs.z)))
      (passIf hasU (.many (xs.map TrajArgs.u))) = .ok (xs.map TrajArgs.q, passIf hasL (xs.map TrajArgs.z),
        passIf hasU (xs.map TrajArgs.u)) := by
    cases xs with
    | nil => exact absurd rfl hne
    | cons x xs => cases hasL <;> cases hasU <;> rfl
  rw [FRom.fitAll, FRom.fit] at h
  cases hc : R.checkFitArgs (passIf hasL (TrainArg.many (xs.map TrajArgs.z))).isNone
      (passIf hasU (TrainArg.many (xs.map TrajArgs.u))).isNone with
  | error e => rw [hc] at h; cases h
  | ok _ =>
    rw [hc, hl] at h
    simp only at h
    obtain ⟨R1, d, Y, Z, U, h1, h2, h3, h4, h5⟩ := fitLists_ok I R R' _ _ _ fitT fitB h
    refine ⟨R1, d, h1, h3, h4, ?_⟩
    intro r m hr hd hY hU
    obtain ⟨s1, s2, s3⟩ := samples_stacked hd h2
    rw [process_model R R1 _ _ _ fitT fitB _ h1] at h5
    refine ⟨⟨R.model, Y.toArg, Z.toArg, U.map Snap.toArg, R'.model⟩, rfl, rfl, s1.symm, hM, hint, toArg_WF Y, toArg_WF Z,
      optArg_WF U, ?_, hr, ?_, fitModel_eq I _ _ _ Y Z U s2 h5⟩
    · have hst : d.states ≠ [] := by
        intro he
        have := (stacked_ok h2).2.1
        rw [he] at this
        cases this
      obtain ⟨X, hX⟩ := exists_mem_of_ne_nil _ hst
      have := s3 X hX
      rw [hY X hX] at this
      exact this.symm
    · intro a ha
      rcases stackInputs_ok (stacked_ok h2).1 with ⟨-, rfl⟩ | ⟨vs, V, hi, rfl, hv⟩
      · cases ha
      · cases ha
        obtain ⟨-, -, v3⟩ := hstackAll_ok (hd.inputs vs hi) hv
        have hvs : vs ≠ [] := by
          rintro rfl
          cases hv
        obtain ⟨X, hX⟩ := exists_mem_of_ne_nil _ hvs
        have := v3 X hX
        rw [hU vs hi X hX] at this
        exact this.symm

/-- The hypotheses of C110: a reduced-order model with a consistent model that learns operators is trained twice, with
the trajectories `xs` and with the same trajectories in another order, `ys`. Transformer and basis are not refitted, or
refitting gives the same in both cases. The data `d` made of `xs` have `r`-dimensional states and `m`-dimensional
inputs. -/
structure TwoTrainings (I I' : SolverI K S) (R R₁ R₂ : FRom K T B S) (hasL hasU fitT fitB : Bool)
    (xs ys : List (TrajArgs K)) (d : TrainData K) (r m : Nat) : Prop where
  inv : R.model.Inv
  learns : R.model.intrusive = false
  perm : xs.Perm ys
  first : R.fitAll I hasL hasU fitT fitB xs = (R₁, .ok ())
  second : R.fitAll I' hasL hasU fitT fitB ys = (R₂, .ok ())
  parts : fitT = false ∧ fitB = false ∨ R₂.rom = R₁.rom
  data : (R.processAll hasL hasU fitT fitB xs).2 = .ok d
  aligned : d.Aligned
  pos : 0 < r
  dim : ∀ Y ∈ d.states, Y.nrows = r
  inputDim : ∀ us ∈ d.inputs, ∀ U ∈ us, U.nrows = m

/-- The conclusion of C110: both have the same parts and estimator; the models agree at all samples; with `decisive`,
their operators and their right-hand sides are the same. -/
structure SameRom (R₁ R₂ : FRom K T B S) (d : TrainData K) (decisive : Prop) : Prop where
  parts : R₂.rom = R₁.rom
  ddt : R₂.ddt = R₁.ddt
  onSamples : ∀ x ∈ d.samples, R₂.model.rhs x.q x.u = R₁.model.rhs x.q x.u
  operators : decisive → R₂.model.slots = R₁.model.slots
  everywhere : decisive → ∀ q u, R₂.model.rhs q u = R₁.model.rhs q u

theorem two_trainings {I I' : SolverI K S} {R R₁ R₂ : FRom K T B S} {hasL hasU fitT fitB : Bool}
    {xs ys : List (TrajArgs K)} {d : TrainData K} {r m : Nat}
    (h : TwoTrainings I I' R R₁ R₂ hasL hasU fitT fitB xs ys d r m) (hI : I.Shaped r) (hI' : I'.Shaped r)
    {pen : List K → K} (hpen : Quadratic (R.model.toInfer.map fun o => o.dim r m).sum pen)
    (ho : ∀ t : Training K S, t.before = R.model → t.Done I r m →
      ∃ O, TrainedOptimally t.before t.after t.samples (fun O => (O.rows.map pen).sum) O)
    (ho' : ∀ t : Training K S, t.before = R.model → t.Done I' r m →
      ∃ O, TrainedOptimally t.before t.after t.samples (fun O => (O.rows.map pen).sum) O) :
    SameRom R₁ R₂ d (Definite (R.model.toInfer.map fun o => o.dim r m).sum pen ∨
      Determines R.model.toInfer (R.model.toInfer.map fun o => o.dim r m).sum d.samples) := by
  obtain ⟨h1, h2, hxy, h3, h4, h5, h6, h7, hr, h8, h9⟩ := h
  obtain ⟨P, d₁, a1, a2, a3, a4⟩ := fitAll_training I R R₁ h1 h2 _ _ _ _ _ h3
  obtain ⟨P', d₂, b1, b2, b3, b4⟩ := fitAll_training I' R R₂ h1 h2 _ _ _ _ _ h4
  obtain rfl : d₁ = d := by
    rw [a1] at h6
    exact Except.ok.inj h6
  obtain ⟨rfl, ts, ts', hts, rfl, rfl⟩ := C110_data R P P' _ _ _ _ xs ys hxy d₁ d₂ a1 b1
    (h5.imp id fun e => by rw [← a2, ← b2, e])
  obtain ⟨t, t1, t2, t3, t4⟩ := a4 r m hr h7 h8 h9
  obtain ⟨t', t1', t2', t3', t4'⟩ := b4 r m hr
    ((asData_aligned _ _).2 fun x hx => (asData_aligned _ _).1 h7 x (hts.mem_iff.2 hx))
    (fun Y hY => h8 Y (by
      obtain ⟨x, hx, rfl⟩ := mem_map.1 hY
      exact mem_map_of_mem (hts.mem_iff.2 hx)))
    (by
      cases hasU with
      | false => intro us hus; cases hus
      | true =>
        intro us hus U hU
        cases hus
        obtain ⟨x, hx, rfl⟩ := mem_map.1 hU
        exact h9 _ rfl _ (mem_map_of_mem (hts.mem_iff.2 hx)))
  have hxs : t.samples.Perm t'.samples := by
    rw [t3, t3', asData_samples, asData_samples]
    exact hts.flatMap_right _
  obtain ⟨O, hO⟩ := ho t t1 t4
  obtain ⟨O', hO'⟩ := ho' t' t1' t4'
  obtain ⟨f1, f2, f3⟩ := t4.facts hI
  obtain ⟨g1, g2, g3⟩ := t4'.facts hI'
  rw [t1', ← t1] at hO' g1
  rw [← t1] at hpen
  obtain ⟨k1, k2⟩ := samples_core t.before t.after t'.after r m t.samples t'.samples hpen O O' hO hO'
    hxs f1 g1 f2 g2 (fun x hx => (f3 x hx).1) (fun x hx => (f3 x hx).2.1) fun x hx => (f3 x hx).2.2
  rw [t1, t2, t2', t3] at k2
  rw [t2, t2', t3] at k1
  refine ⟨by rw [a2, b2], by rw [a3, b3], fun x hx => (k1 x hx).symm, fun hd => (k2 hd).symm, fun hd q u => ?_⟩
  simp only [Model.rhs, Model.ops, k2 hd]

/-- **C110** (`L2Solver`). Training a reduced-order model with the same trajectories in another order gives the same
model, up to what the data do not determine. -/
theorem C110_l2 (svd svd' : Mat K → Except Err (Svd K)) (hsvd : ∀ D u, svd D = .ok u → IsSVD D u)
    (hsvd' : ∀ D u, svd' D = .ok u → IsSVD D u) {R R₁ R₂ : FRom K T B (L2 K K)} {hasL hasU fitT fitB : Bool}
    {xs ys : List (TrajArgs K)} {d : TrainData K} {r m : Nat} {lam : K} (hlam : ∀ s ∈ R.model.solver, s.reg = some lam)
    (h : TwoTrainings (l2Solver svd) (l2Solver svd') R R₁ R₂ hasL hasU fitT fitB xs ys d r m) :
    SameRom R₁ R₂ d (lam ≠ 0 ∨
      Determines R.model.toInfer (R.model.toInfer.map fun o => o.dim r m).sum d.samples) := by
  have e : (fun O : Mat K => (O.rows.map fun v => lam ^ 2 * sumSq v).sum) = fun O => lam ^ 2 * (O.rows.map sumSq).sum := by
    funext O
    rw [List.sum_map_mul_left]
  have key := two_trainings h (l2Solver_shaped svd (fun D u h => ⟨(hsvd D u h).psiWF, (hsvd D u h).psiCols⟩) _)
    (l2Solver_shaped svd' (fun D u h => ⟨(hsvd' D u h).psiWF, (hsvd' D u h).psiCols⟩) _)
    (pen := fun v => lam ^ 2 * sumSq v) (quadratic_sumSq _ lam)
    (fun t ht hd => by rw [e]; exact hd.l2 hsvd (ht ▸ hlam)) (fun t ht hd => by rw [e]; exact hd.l2 hsvd' (ht ▸ hlam))
  have hdef : lam ≠ 0 → Definite (R.model.toInfer.map fun o => o.dim r m).sum (fun v : List K => lam ^ 2 * sumSq v) := by
    intro hl v _ hv
    have : sumSq v = 0 := (mul_eq_zero.1 hv).resolve_left (pow_ne_zero 2 hl)
    rw [sumSq_eq_zero _ this]
    exact fun y hy => (mem_replicate.1 hy).2
  exact ⟨key.parts, key.ddt, key.onSamples, fun hd => key.operators (hd.imp hdef id),
    fun hd => key.everywhere (hd.imp hdef id)⟩

/-- **C110** (`PlainSolver`). -/
theorem C110_plain (lstsq lstsq' : Mat K → Mat K → Except Err (Mat K))
    (hls : ∀ A B X, lstsq A B = .ok X → IsLstsq A B X) (hls' : ∀ A B X, lstsq' A B = .ok X → IsLstsq A B X)
    {R R₁ R₂ : FRom K T B (Plain K)} {hasL hasU fitT fitB : Bool} {xs ys : List (TrajArgs K)} {d : TrainData K} {r m : Nat}
    (h : TwoTrainings (plainSolver lstsq) (plainSolver lstsq') R R₁ R₂ hasL hasU fitT fitB xs ys d r m) :
    SameRom R₁ R₂ d (Determines R.model.toInfer (R.model.toInfer.map fun o => o.dim r m).sum d.samples) := by
  have e : (fun O : Mat K => (O.rows.map fun v => (0 : K) ^ 2 * sumSq v).sum) =
      fun O => (0 : K) ^ 2 * (O.rows.map sumSq).sum := by
    funext O
    rw [List.sum_map_mul_left]
  have key := two_trainings h
    (plainSolver_shaped lstsq (fun A B X h => ⟨(hls A B X h).wf, (hls A B X h).rows, (hls A B X h).cols⟩) _)
    (plainSolver_shaped lstsq' (fun A B X h => ⟨(hls' A B X h).wf, (hls' A B X h).rows, (hls' A B X h).cols⟩) _)
    (pen := fun v => (0 : K) ^ 2 * sumSq v) (quadratic_sumSq _ 0)
    (fun t ht hd => by rw [e]; exact hd.plain hls) (fun t ht hd => by rw [e]; exact hd.plain hls')
  exact ⟨key.parts, key.ddt, key.onSamples, fun hd => key.operators (.inr hd), fun hd => key.everywhere (.inr hd)⟩

theorem tik_optimal {ls ps : Mat K → Mat K → Except Err (Mat K)} (k1 : ∀ A B X, ls A B = .ok X → IsLstsq A B X)
    (k2 : ∀ A B X, A.nrows = B.nrows → A.nrows = A.ncols → ps A B = .ok X → IsSolution A B X) {G : Mat K} (hG : G.WF)
    {v : Training K (Tik (Mat K) K)} {r m : Nat} (hv : v.Done (tikSolver ls ps) r m)
    (hvr : ∀ s ∈ v.before.solver, s.reg = some G) : ∃ O, TrainedOptimally v.before v.after v.samples
      (fun O => (O.rows.map fun o => sumSq (matVec G.rows o)).sum) O := by
  obtain ⟨h1, h2, h3, h4, h5, rfl, h7, h8, h9⟩ := hv
  obtain ⟨s, G', O, y, w, g1, g2, g3⟩ := C62_tikhonov_fit_is_optimal ls ps k1 k2 v.before h1 h2
    (fun s hs G' hG' => by
      have := hvr s hs
      rw [Option.mem_def] at hG'
      rw [hG', Option.some.injEq] at this
      exact this ▸ hG) _ _ _ h3 h4 h5 h7 v.after h9
  have := hvr s (by rw [g1]; rfl)
  rw [g2, Option.some.injEq] at this
  subst this
  exact ⟨O, trainedOptimally_of g3⟩

/-- **C110** (`TikhonovSolver`). -/
theorem C110_tikhonov (lstsq posSolve lstsq' posSolve' : Mat K → Mat K → Except Err (Mat K))
    (hls : ∀ A B X, lstsq A B = .ok X → IsLstsq A B X)
    (hps : ∀ A B X, A.nrows = B.nrows → A.nrows = A.ncols → posSolve A B = .ok X → IsSolution A B X)
    (hls' : ∀ A B X, lstsq' A B = .ok X → IsLstsq A B X)
    (hps' : ∀ A B X, A.nrows = B.nrows → A.nrows = A.ncols → posSolve' A B = .ok X → IsSolution A B X)
    {R R₁ R₂ : FRom K T B (Tik (Mat K) K)} {hasL hasU fitT fitB : Bool} {xs ys : List (TrajArgs K)} {d : TrainData K}
    {r m : Nat} {G : Mat K} (hG : G.WF) (hreg : ∀ s ∈ R.model.solver, s.reg = some G)
    (h : TwoTrainings (tikSolver lstsq posSolve) (tikSolver lstsq' posSolve') R R₁ R₂ hasL hasU fitT fitB xs ys d r m) :
    SameRom R₁ R₂ d ((∀ v : List K, v.length = (R.model.toInfer.map fun o => o.dim r m).sum →
        (∀ y ∈ matVec G.rows v, y = 0) → ∀ y ∈ v, y = 0) ∨
      Determines R.model.toInfer (R.model.toInfer.map fun o => o.dim r m).sum d.samples) := by
  have key := two_trainings h
    (tikSolver_shaped lstsq posSolve (fun A B X h => ⟨(hls A B X h).wf, (hls A B X h).rows, (hls A B X h).cols⟩)
      (fun A B X e1 e2 h => ⟨(hps A B X e1 e2 h).wf, (hps A B X e1 e2 h).rows.trans e2.symm, (hps A B X e1 e2 h).cols⟩) _)
    (tikSolver_shaped lstsq' posSolve' (fun A B X h => ⟨(hls' A B X h).wf, (hls' A B X h).rows, (hls' A B X h).cols⟩)
      (fun A B X e1 e2 h => ⟨(hps' A B X e1 e2 h).wf, (hps' A B X e1 e2 h).rows.trans e2.symm, (hps' A B X e1 e2 h).cols⟩) _)
    (quadratic_matVec _ G.rows) (fun t ht hd => tik_optimal hls hps hG hd (ht ▸ hreg))
    (fun t ht hd => tik_optimal hls' hps' hG hd (ht ▸ hreg))
  have hdef : (∀ v : List K, v.length = (R.model.toInfer.map fun o => o.dim r m).sum →
      (∀ y ∈ matVec G.rows v, y = 0) → ∀ y ∈ v, y = 0) →
      Definite (R.model.toInfer.map fun o => o.dim r m).sum fun v => sumSq (matVec G.rows v) := by
    intro hk v hv h0
    refine hk v hv ?_
    rw [sumSq_eq_zero _ h0]
    exact fun y hy => (mem_replicate.1 hy).2
  exact ⟨key.parts, key.ddt, key.onSamples, fun hd => key.operators (hd.imp hdef id),
    fun hd => key.everywhere (hd.imp hdef id)⟩

end

/-! ### Example -/

/-- A least-squares routine restricted to two problems that fit exactly. -/
def romLs (A B : Mat ℚ) : Except Err (Mat ℚ) :=
  if A = ⟨3, 2, [[1, 0], [1, 1], [1, 3]]⟩ ∧ B = ⟨3, 1, [[1], [3], [7]]⟩ then .ok ⟨2, 1, [[1], [2]]⟩
  else if A = ⟨3, 2, [[1, 3], [1, 0], [1, 1]]⟩ ∧ B = ⟨3, 1, [[7], [1], [3]]⟩ then .ok ⟨2, 1, [[1], [2]]⟩
  else .error .linalg

theorem romLs_spec (A B X : Mat ℚ) (h : romLs A B = .ok X) : IsLstsq A B X := by
  unfold romLs at h
  split at h
  · rename_i hc
    obtain ⟨rfl, rfl⟩ := hc
    injection h with h
    subst h
    refine ⟨by decide, rfl, rfl, ?_⟩
    intro j hj
    obtain rfl : j = 0 := by simp at hj; exact hj
    refine ⟨rfl, fun o' _ => ?_⟩
    have : sumSq (vsub (matVec [[1, 0], [1, 1], [1, 3]] (col [[(1 : ℚ)], [2]] 0)) (col [[1], [3], [7]] 0)) = 0 := by
      decide +kernel
    simp only
    rw [this]
    exact sumSq_nonneg _
  · split at h
    · rename_i hc
      obtain ⟨rfl, rfl⟩ := hc
      injection h with h
      subst h
      refine ⟨by decide, rfl, rfl, ?_⟩
      intro j hj
      obtain rfl : j = 0 := by simp at hj; exact hj
      refine ⟨rfl, fun o' _ => ?_⟩
      have : sumSq (vsub (matVec [[1, 3], [1, 0], [1, 1]] (col [[(1 : ℚ)], [2]] 0)) (col [[7], [1], [3]] 0)) = 0 := by
        decide +kernel
      simp only
      rw [this]
      exact sumSq_nonneg _
    · cases h

/-- A fully discrete reduced-order model with a constant and a linear operator. -/
def ordRom : FRom ℚ Unit Unit (Plain ℚ) where
  rom := ⟨none, none, none, false⟩
  ddt := none
  model := ordModel .const .lin

/-- The trajectories 0, 1, 3 and 3, 7 of `q ↦ 1 + 2q`. -/
def ordTraj : List (TrajArgs ℚ) :=
  [⟨.mat 3 [[0, 1, 3]], .vec [], .vec []⟩, ⟨.mat 2 [[3, 7]], .vec [], .vec []⟩]

/-- Their training data. -/
def ordData : TrainData ℚ := ⟨[.mat 2 [[0, 1]], .mat 1 [[3]]], [.mat 2 [[1, 3]], .mat 1 [[7]]], none⟩

theorem ord_two : TwoTrainings (plainSolver romLs) (plainSolver romLs) ordRom
    (ordRom.fitAll (plainSolver romLs) false false false false ordTraj).1
    (ordRom.fitAll (plainSolver romLs) false false false false ordTraj.reverse).1 false false false false ordTraj
    ordTraj.reverse ordData 1 0 where
  inv := ordModel_inv _ _
  learns := rfl
  perm := (reverse_perm _).symm
  first := Prod.ext rfl (by decide +kernel)
  second := Prod.ext rfl (by decide +kernel)
  parts := .inl ⟨rfl, rfl⟩
  data := by decide +kernel
  aligned := ⟨by simp [ordData, Snap.WF], by simp [ordData, Snap.WF], by simp [ordData], by decide +kernel, by simp [ordData]⟩
  pos := by omega
  dim := by decide +kernel
  inputDim := by simp [ordData]

theorem ord_determines : Determines ordRom.model.toInfer (ordRom.model.toInfer.map fun o => o.dim 1 0).sum
    ordData.samples := by
  intro v hv h
  obtain ⟨a, b, rfl⟩ : ∃ a b, v = [a, b] := by
    match v, hv with
    | [a, b], _ => exact ⟨a, b, rfl⟩
  have hs : ordData.samples = [⟨[0], [1], none⟩, ⟨[1], [3], none⟩, ⟨[3], [7], none⟩] := rfl
  rw [hs] at h
  have h0 := h ⟨[0], [1], none⟩ (by simp)
  have h1 := h ⟨[1], [3], none⟩ (by simp)
  simp [ordRom, ordModel, Model.toInfer, dataVector, OpKind.dataCol, dot] at h0 h1
  simp [h0] at h1
  simp [h0, h1]

-- all hypotheses of `C110_plain` hold for two trajectories in both orders
example : (ordRom.fitAll (plainSolver romLs) false false false false ordTraj.reverse).1.model.slots =
    (ordRom.fitAll (plainSolver romLs) false false false false ordTraj).1.model.slots :=
  (C110_plain romLs romLs romLs_spec romLs_spec ord_two).operators ord_determines

-- the operators learned
example : (ordRom.fitAll (plainSolver romLs) false false false false ordTraj).1.model.ops.map Op.entries =
    [some ⟨1, 1, [[1]]⟩, some ⟨1, 1, [[2]]⟩] := by decide +kernel

end Opinf
