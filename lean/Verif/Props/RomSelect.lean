import Verif.Lemmas.RegSelect
import Verif.Model.RomSelect
import Verif.Props.RegSelect
import Verif.Props.RomFitOptimal

/-!
# C72: regularization selection of a reduced-order model is training with the selected regularization
-/

namespace Opinf

open List

variable {K T B S C : Type}

/-! ### Helpers -/

/-- The reduced-order model with another model of the dynamics. -/
def FRom.withModel (R : FRom K T B S) (M : Model K S) : FRom K T B S := { R with model := M }

/-- The reduced-order model whose solver is `s`. -/
def FRom.withSolver (R : FRom K T B S) (s : S) : FRom K T B S := R.withModel { R.model with solver := some s }

theorem process_withModel (R : FRom K T B S) (M : Model K S) (qs : List (Snap K)) (zs us : Option (List (Snap K)))
    (fitT fitB : Bool) : (R.withModel M).process qs zs us fitT fitB =
      (((R.process qs zs us fitT fitB).1).withModel M, (R.process qs zs us fitT fitB).2) := by
  rw [FRom.process, FRom.process]
  change (match R.rom.reduceTrain fitT fitB qs zs with | (rom, .error e) => _ | (rom, .ok (Y, Z)) => _) = _
  rcases R.rom.reduceTrain fitT fitB qs zs with ⟨rom, e | ⟨Y, Z⟩⟩ <;> rfl

theorem process_rest (R R1 : FRom K T B S) (qs : List (Snap K)) (zs us : Option (List (Snap K))) (fitT fitB : Bool)
    (d : TrainData K) (h : R.process qs zs us fitT fitB = (R1, .ok d)) :
    R1.model = R.model ∧ R1.rom.continuous = R.rom.continuous := by
  refine ⟨process_model _ _ _ _ _ _ _ _ h, ?_⟩
  obtain ⟨rom, Y, Z, h1, rfl, -⟩ := (process_eq _ _ _ _ _ _ _ _).1 h
  obtain ⟨Ls, Es, R1, Xs, Fs, -, h2, h3⟩ := (reduceTrain_steps _ _ _ _ _ _ _ _).1 h1
  exact (((basisTrain_ok _ _ _ _ _ _ _).1 h3).1.2.2).trans (((tfTrain_ok _ _ _ _ _ _ _).1 h2).1.2.2)

/-- What a successful selection has done. -/
theorem selectLists_ok [Field K] [LinearOrder K] (I : SolverI K S) (setReg : S → Point K → S × Except Err Unit)
    (G : Search K) (cases : Rom K T B → TrainData K → Except Err (List (RegCase K (Model K S)) × List (TrainCase K (Model K S))))
    (c : Cands K) (only : Bool) (R R' : FRom K T B S) (qs : List (Snap K)) (zs us : Option (List (Snap K)))
    (fitT fitB : Bool) (h : R.selectLists I setReg G cases c only qs zs us fitT fitB = (R', .ok ())) :
    R.checkFitArgs zs.isNone us.isNone = .ok () ∧ ∃ R1 d Y Z U, R.process qs zs us fitT fitB = (R1, .ok d) ∧
      d.stacked = .ok (Y, Z, U) ∧ R' = R1.withModel R'.model ∧
      regselect I setReg G (cases R1.rom d) c only R.model Y.toArg Z.toArg (U.map Snap.toArg) = (R'.model, .ok ()) := by
  rw [FRom.selectLists] at h
  cases hc : R.checkFitArgs zs.isNone us.isNone with
  | error e => rw [hc] at h; cases h
  | ok x =>
    rw [hc] at h
    refine ⟨rfl, ?_⟩
    rcases hp : R.process qs zs us fitT fitB with ⟨R1, e | d⟩
    · rw [hp] at h; cases h
    · rw [hp] at h
      simp only at h
      cases hs : d.stacked with
      | error e => rw [hs] at h; cases h
      | ok y =>
        obtain ⟨Y, Z, U⟩ := y
        rw [hs] at h
        simp only [Prod.mk.injEq] at h
        obtain ⟨rfl, h⟩ := h
        refine ⟨R1, d, Y, Z, U, rfl, hs, rfl, ?_⟩
        rw [← (process_rest _ _ _ _ _ _ _ _ hp).1]
        exact Prod.ext rfl h

theorem beside_ncolumns {X Y Z : Snap K} (h : X.beside Y = .ok Z) : Z.ncolumns = X.ncolumns + Y.ncolumns := by
  cases X <;> cases Y <;> simp only [Snap.beside] at h
  · cases h; simp [Snap.ncolumns]
  · cases h
  · cases h
  · split at h
    · cases h; simp [Snap.ncolumns]
    · cases h

theorem hstackAll_ncolumns {Xs : List (Snap K)} {Y : Snap K} (h : hstackAll Xs = .ok Y) :
    Y.ncolumns = (Xs.map Snap.ncolumns).sum := by
  induction Xs generalizing Y with
  | nil => cases h
  | cons X Xs ih =>
    cases Xs with
    | nil =>
      simp only [hstackAll, Except.ok.injEq] at h
      subst h
      simp
    | cons X' Xs =>
      change (hstackAll (X' :: Xs)).bind (fun W => X.beside W) = .ok Y at h
      cases h1 : hstackAll (X' :: Xs) with
      | error e => rw [h1] at h; cases h
      | ok W =>
        rw [h1] at h
        change X.beside W = .ok Y at h
        rw [beside_ncolumns h, ih h1]
        simp

theorem hstackAll_mat {Xs : List (Snap K)} {Y : Snap K} (h : hstackAll Xs = .ok Y)
    (hX : ∀ X ∈ Xs, ∃ k rows, X = .mat k rows) : ∃ k rows, Y = .mat k rows := by
  cases Xs with
  | nil => cases h
  | cons X Xs =>
    obtain ⟨k, rows, rfl⟩ := hX X mem_cons_self
    cases Xs with
    | nil =>
      simp only [hstackAll, Except.ok.injEq] at h
      exact ⟨k, rows, h.symm⟩
    | cons X' Xs =>
      simp only [hstackAll, bind, Except.bind] at h
      split at h
      · cases h
      · rename_i W _
        cases W with
        | vec xs => cases h
        | mat l b =>
          simp only [Snap.beside] at h
          split at h
          · cases h; exact ⟨_, _, rfl⟩
          · cases h

theorem firstCols_ncolumns (k : Nat) (U : Snap K) : (U.firstCols k).ncolumns ≤ k := by
  cases U with
  | vec xs => simp [Snap.firstCols, Snap.ncolumns]
  | mat l rows => simp [Snap.firstCols, Snap.ncolumns]

/-- For a fully discrete model without left-hand sides, the concatenated inputs are never longer than the states. -/
theorem discrete_stacked (R R1 : FRom K T B S) (hc : R.rom.continuous = false) (qs : List (Snap K))
    (us : Option (List (Snap K))) (fitT fitB : Bool) (d : TrainData K)
    (h : R.process qs none us fitT fitB = (R1, .ok d)) (Y Z : Snap K) (U : Option (Snap K))
    (hs : d.stacked = .ok (Y, Z, U)) :
    (∃ k rows, Y = .mat k rows) ∧ ∀ V ∈ U, V.ncolumns ≤ Y.ncolumns := by
  obtain ⟨-, es, -, h2, -, h4⟩ := (C69_discrete R R1 hc qs us fitT fitB d).1 h
  simp only [TrainData.stacked, bind, Except.bind, pure, Except.pure] at hs
  cases h5 : stackInputs d.inputs with
  | error e => rw [h5] at hs; cases hs
  | ok U' =>
    rw [h5] at hs
    simp only at hs
    cases h6 : hstackAll d.states with
    | error e => rw [h6] at hs; cases hs
    | ok Y' =>
      rw [h6] at hs
      simp only at hs
      cases h7 : hstackAll d.lhs with
      | error e => rw [h7] at hs; cases hs
      | ok Z' =>
        rw [h7] at hs
        simp only [Except.ok.injEq, Prod.mk.injEq] at hs
        obtain ⟨rfl, rfl, rfl⟩ := hs
        refine ⟨hstackAll_mat h6 ?_, ?_⟩
        · intro X hX
          obtain ⟨e, -, he⟩ := forall₂_mem_right h2 hX
          cases e with
          | vec xs => cases he
          | mat k rows => cases he; exact ⟨_, _, rfl⟩
        · intro V hV
          cases us with
          | none =>
            rw [h4, Option.map_none, stackInputs] at h5
            cases h5
            cases hV
          | some us =>
            rw [h4, Option.map_some, stackInputs] at h5
            cases h8 : hstackAll (zipWith (fun Y U => Snap.firstCols Y.ncolumns U) d.states us) with
            | error e => rw [h8] at h5; cases h5
            | ok W =>
              rw [h8] at h5
              cases h5
              cases hV
              rw [hstackAll_ncolumns h8, hstackAll_ncolumns h6]
              generalize d.states = ys
              clear h8 h6 h4 h2 h
              induction ys generalizing us with
              | nil => simp
              | cons y ys ih =>
                cases us with
                | nil => simp
                | cons u us =>
                  have := ih us
                  have := firstCols_ncolumns y.ncolumns u
                  simp only [zipWith_cons_cons, map_cons, sum_cons]
                  omega

theorem fitModel_of_fit [CommRing K] (I : SolverI K S) (M : Model K S) (Y Z : Snap K)
    (U : Option (Snap K)) (hY : ∃ k rows, Y = .mat k rows) (hU : ∀ V ∈ U, V.ncolumns ≤ Y.ncolumns) :
    fitModel I M false Y Z U = M.fit I Y.toArg Z.toArg (U.map Snap.toArg) := by
  obtain ⟨k, rows, rfl⟩ := hY
  simp only [fitModel, Bool.false_eq_true, if_false]
  change M.fitDiscrete I rows.length (transpose k rows) (some Z.toArg) (U.map Snap.toArg) = _
  obtain ⟨e1, e2, -⟩ := C63_discrete_fit_explicit I M rows.length (transpose k rows) Z.toArg
  cases U with
  | none => rw [Option.map_none, e1]; rfl
  | some V =>
    rw [Option.map_some, e2 _ (by cases V <;> simp [Snap.toArg]), takeCols_toArg]
    · rfl
    · rw [columnList_length]
      have := hU V rfl
      simpa [Snap.ncolumns, transpose] using this

theorem isNone_of_fixLists {states : TrainArg K} {lhs inputs : Option (TrainArg K)} {qs : List (Snap K)}
    {zs us : Option (List (Snap K))} (h : fixLists states lhs inputs = .ok (qs, zs, us)) :
    zs.isNone = lhs.isNone ∧ us.isNone = inputs.isNone := by
  simp only [fixLists, bind, Except.bind, pure, Except.pure] at h
  split at h
  · cases h
  split at h
  · cases h
  split at h
  · cases h
  rename_i h1
  split at h
  · cases h
  rename_i h2
  simp only [Except.ok.injEq, Prod.mk.injEq] at h
  obtain ⟨-, rfl, rfl⟩ := h
  have key : ∀ (b : Bool) (o : Option (TrainArg K)) w, optList b o = .ok w → w.isNone = o.isNone := by
    intro b o w hw
    cases o with
    | none => simp only [optList, Except.ok.injEq] at hw; subst hw; rfl
    | some a =>
      simp only [optList] at hw
      cases ha : a.toList b with
      | error e => rw [ha] at hw; cases hw
      | ok x => rw [ha] at hw; cases hw; rfl
  exact ⟨key _ _ _ h1, key _ _ _ h2⟩

/-! ### Setting the regularization before or after the data are handed to the solver -/

/-- If the solver accepts the data and afterwards the regularization, it may as well be given the regularization first;
and conversely the result is the same. -/
def Commute (I : SolverI K S) (setReg : S → Point K → S × Except Err Unit) (s : S) : Prop :=
  Prior I setReg s ∧ ∀ D Z p t s' t', I.fit s D Z = (t, .ok ()) → setReg s p = (s', .ok ()) →
    I.fit s' D Z = (t', .ok ()) → setReg t p = (t', .ok ())

theorem l2_commute [Field K] [LinearOrder K] (svd : Mat K → Except Err (Svd K))
    (factory : Point K → Except Err (Option K)) (s : L2 K K) : Commute (l2Solver svd) (l2SetReg factory) s := by
  refine ⟨l2_prior svd factory s, ?_⟩
  intro D Z p t s' t' h1 h2 h3
  simp only [l2Solver] at h1 h3
  split at h1
  · simp at h1
  · rename_i hZ
    simp only [hZ, if_false, Bool.false_eq_true] at h3
    simp only [L2.fit] at h1 h3
    cases ht : templateFit (.mat D) (.mat (lhsMat Z)) with
    | error e => rw [ht] at h1; simp at h1
    | ok DZ =>
      obtain ⟨D', Z'⟩ := DZ
      rw [ht] at h1 h3
      simp only at h1 h3
      cases hv : svd D' with
      | error e => rw [hv] at h1; simp at h1
      | ok u =>
        rw [hv] at h1 h3
        simp only [Prod.mk.injEq, and_true] at h1 h3
        subst h1
        simp only [l2SetReg] at h2 ⊢
        cases hfac : factory p with
        | error e => rw [hfac] at h2; simp at h2
        | ok reg =>
          rw [hfac] at h2
          simp only [L2.setReg] at h2 ⊢
          cases reg with
          | none =>
            simp only [Prod.mk.injEq, and_true] at h2 ⊢
            rw [← h3, ← h2]
          | some x =>
            simp only at h2 ⊢
            split at h2
            · simp at h2
            · rename_i hx
              simp only [Prod.mk.injEq, and_true] at h2
              rw [if_neg hx, ← h3, ← h2]

theorem tik_commute [Field K] [LinearOrder K] (lstsq posSolve : Mat K → Mat K → Except Err (Mat K))
    (factory : Point K → Except Err (Option (RegArg K))) (s : Tik (Mat K) K) (hs : s.data = none) :
    Commute (tikSolver lstsq posSolve) (tikSetReg factory) s := by
  refine ⟨tik_prior lstsq posSolve factory s hs, ?_⟩
  intro D Z p t s' t' h1 h2 h3
  simp only [tikSolver] at h1 h3
  split at h1
  · simp at h1
  · rename_i hZ
    simp only [hZ, if_false, Bool.false_eq_true] at h3
    simp only [Tik.fit1, Tik.fit] at h1 h3
    cases ht : templateFit (.mat D) (.mat (lhsMat Z)) with
    | error e => rw [ht] at h1; simp at h1
    | ok DZ =>
      obtain ⟨D', Z'⟩ := DZ
      rw [ht] at h1 h3
      simp only at h1 h3
      have ht' : t = { s with data := some (D', Z'), pre := some (tikPre D' Z') } := by
        split at h1
        · simp at h1
        · simp only [Prod.mk.injEq, and_true] at h1
          exact h1.symm
      subst ht'
      simp only [tikSetReg] at h2 ⊢
      cases hfac : factory p with
      | error e => rw [hfac] at h2; simp at h2
      | ok reg =>
        rw [hfac] at h2
        simp only [Tik.setReg] at h2 ⊢
        cases reg with
        | none =>
          simp only [Prod.mk.injEq, and_true] at h2 ⊢
          rw [← h2] at h3
          simp only [Prod.mk.injEq, and_true] at h3
          exact h3
        | some x =>
          simp only at h2 ⊢
          cases hx : x.toMat with
          | error e => rw [hx] at h2; simp at h2
          | ok X =>
            rw [hx] at h2
            simp only [hs, Prod.mk.injEq, and_true] at h2
            rw [← h2] at h3
            simp only at h3
            cases hsh : tikShape D'.ncols X with
            | error e => rw [hsh] at h3; simp at h3
            | ok _ =>
              rw [hsh] at h3
              simp only [Prod.mk.injEq, and_true] at h3 ⊢
              exact ⟨h3, hsh⟩

theorem update_iff_fit [Field K] [LinearOrder K] (I : SolverI K S) {setReg : S → Point K → S × Except Err Unit}
    (M M1 : Model K S) (hint : M.intrusive = false) (s : S) (hs : M.solver = some s) (hcom : Commute I setReg s)
    (states lhs : Arg K) (inputs : Option (Arg K)) (hf : M.fitSolver I states lhs inputs = (M1, .ok ())) (p : Point K)
    (N : Model K S) : updateModel I setReg M1 p = (N, .ok ()) ↔
      ∃ s', setReg s p = (s', .ok ()) ∧ Model.fit I { M with solver := some s' } states lhs inputs = (N, .ok ()) := by
  obtain ⟨X, Q, Z, U, s0, t, hp, hs0, hfit, rfl⟩ := fitSolver_ok hf
  rw [hs] at hs0
  cases hs0
  have hfit' : ∀ s', Model.fit I { M with solver := some s' } states lhs inputs =
      match I.fit s' (X.dataMatrix Q U) Z with
      | (t', .error e) => (X.ws (some t'), .error e)
      | (t', .ok ()) => Model.refit I (X.ws (some t')) := by
    intro s'
    have hws := process_ws M (some s') states lhs inputs
    simp only [Model.ws] at hws
    have hd : ∀ Q U, ({ X with solver := some s' } : Model K S).dataMatrix Q U = X.dataMatrix Q U := fun _ _ => rfl
    have hni : ¬ ({ M with solver := some s' } : Model K S).intrusive = true := by simp [hint]
    rw [Model.fit, if_neg hni, Model.fitSolver, hws, hp]
    simp only [hd]
    rcases I.fit s' (X.dataMatrix Q U) Z with ⟨t', e | _⟩ <;> rfl
  constructor
  · intro hu
    simp only [updateModel, Model.ws] at hu
    rcases hr : setReg t p with ⟨t', e | _⟩
    · rw [hr] at hu; simp at hu
    · rw [hr] at hu
      obtain ⟨s', h1, h2⟩ := hcom.1 _ _ _ _ _ hfit hr
      refine ⟨s', h1, ?_⟩
      rw [hfit', h2]
      exact hu
  · rintro ⟨s', h1, h2⟩
    rw [hfit'] at h2
    rcases h3 : I.fit s' (X.dataMatrix Q U) Z with ⟨t', e | _⟩
    · rw [h3] at h2; simp at h2
    · rw [h3] at h2
      simp only [updateModel, Model.ws, hcom.2 _ _ _ _ _ _ hfit h1 h3]
      exact h2

theorem fitLists_iff [Field K] [LinearOrder K] (I : SolverI K S) (R R1 : FRom K T B S) (s' : S)
    (qs : List (Snap K)) (zs us : Option (List (Snap K))) (fitT fitB : Bool)
    (hd : R.rom.continuous = true ∨ zs = none) (d : TrainData K)
    (hp : R.process qs zs us fitT fitB = (R1, .ok d)) (Y Z : Snap K) (U : Option (Snap K))
    (hst : d.stacked = .ok (Y, Z, U)) (N : FRom K T B S) :
    (R.withSolver s').fitLists I qs zs us fitT fitB = (N, .ok ()) ↔ N = R1.withModel N.model ∧
      Model.fit I { R.model with solver := some s' } Y.toArg Z.toArg (U.map Snap.toArg) = (N.model, .ok ()) := by
  have hcont := (process_rest _ _ _ _ _ _ _ _ hp).2
  have hfm : fitModel I { R.model with solver := some s' } R1.rom.continuous Y Z U =
      Model.fit I { R.model with solver := some s' } Y.toArg Z.toArg (U.map Snap.toArg) := by
    cases hc : R1.rom.continuous with
    | true => rfl
    | false =>
      rw [hcont] at hc
      have hz : zs = none := by
        rcases hd with hd | hd
        · rw [hd] at hc; cases hc
        · exact hd
      subst hz
      obtain ⟨g1, g2⟩ := discrete_stacked R R1 hc qs us fitT fitB d hp Y Z U hst
      rw [fitModel_of_fit I _ Y Z U g1 g2]
  rw [FRom.fitLists, FRom.withSolver, process_withModel, hp]
  simp only [hst]
  change (R1.withModel (fitModel I { R.model with solver := some s' } R1.rom.continuous Y Z U).1,
    (fitModel I { R.model with solver := some s' } R1.rom.continuous Y Z U).2) = _ ↔ _
  rw [hfm]
  generalize Model.fit I _ _ _ _ = o
  obtain ⟨M', x⟩ := o
  simp only [Prod.mk.injEq]
  constructor
  · rintro ⟨rfl, rfl⟩
    exact ⟨rfl, rfl, rfl⟩
  · rintro ⟨h1, h2, h3⟩
    rw [h1, ← h2]
    exact ⟨rfl, h3⟩

/-! ### C72 -/

/-- `R'` is the result of selecting the regularization: there are a selected regularization `w` and an error `v` such
that `R'` is the result of `train` with `w` set beforehand, is stable on all cases with mean relative error `v`, and every
candidate for which training gives a model that is stable has at least that error. -/
def SelectedAsTrained [Field K] [LinearOrder K] (setReg : S → Point K → S × Except Err Unit) (s : S)
    (train : S → FRom K T B S → Prop) (c : Cands K) (only : Bool) (tests : List (RegCase K (Model K S)))
    (trains : List (TrainCase K (Model K S))) (R' : FRom K T B S) : Prop :=
  ∃ w s' v, setReg s w = (s', .ok ()) ∧ train s' R' ∧ (only = true → w ∈ c.points) ∧
    Scores tests trains R'.model v ∧ v.Genuine ∧
    ∀ p ∈ c.points, ∀ s'' N u, setReg s p = (s'', .ok ()) → train s'' N → Scores tests trains N.model u → u.Genuine →
      v.AtMost u

theorem select_as_trained [Field K] [LinearOrder K] (I : SolverI K S) {setReg : S → Point K → S × Except Err Unit}
    {cfg : S → C} (G : Search K) (hO : Overwrites setReg cfg) (ho : ∀ st, (G.optimiser st).Honest [])
    (cases : Rom K T B → TrainData K → Except Err (List (RegCase K (Model K S)) × List (TrainCase K (Model K S))))
    (c : Cands K) (only : Bool) (R R' : FRom K T B S) (hint : R.model.intrusive = false) (s : S)
    (hs : R.model.solver = some s) (hcom : Commute I setReg s) (qs : List (Snap K)) (zs us : Option (List (Snap K)))
    (fitT fitB : Bool) (hd : R.rom.continuous = true ∨ zs = none)
    (h : R.selectLists I setReg G cases c only qs zs us fitT fitB = (R', .ok ())) :
    ∃ R1 d tests trains, R.process qs zs us fitT fitB = (R1, .ok d) ∧ R'.rom = R1.rom ∧
      cases R1.rom d = .ok (tests, trains) ∧ SelectedAsTrained setReg s (fun s' N => (R.withSolver s').fitLists I qs zs us fitT fitB = (N, .ok ())) c only
        tests trains R' := by
  obtain ⟨-, R1, d, Y, Z, U, hp, hst, hR', hr⟩ := selectLists_ok I setReg G cases c only R R' qs zs us fitT fitB h
  obtain ⟨M1, tests, trains, w, v, hf, hca, hu, h1, h2, h3, h4⟩ := C49_selected I G hO ho _ c only _ _ _ _ _ hr
  obtain ⟨s', h5, h6⟩ := (update_iff_fit I _ _ hint s hs hcom _ _ _ hf _ _).1 hu
  refine ⟨R1, d, tests, trains, hp, by rw [hR']; rfl, hca, w, s', v, h5, ?_, h3, h1, h2, ?_⟩
  · exact (fitLists_iff I R R1 s' qs zs us fitT fitB hd d hp Y Z U hst R').2 ⟨hR', h6⟩
  · intro p hpc s'' N u g1 g2 g3 g4
    have g5 := ((fitLists_iff I R R1 s'' qs zs us fitT fitB hd d hp Y Z U hst N).1 g2).2
    exact h4 p hpc N.model u ((update_iff_fit I _ _ hint s hs hcom _ _ _ hf _ _).2 ⟨s'', g1, g5⟩) g3 g4

/-- **C72.** A successful `fit_regselect_discrete` leaves the reduced-order model, including its transformer and basis,
exactly as `fit` with the same training data does when the selected regularization is set beforehand; and the
selected regularization is best among the candidates in this sense. -/
theorem C72_discrete [Field K] [LinearOrder K] (I : SolverI K S) {setReg : S → Point K → S × Except Err Unit}
    {cfg : S → C} (G : Search K) (hO : Overwrites setReg cfg) (ho : ∀ st, (G.optimiser st).Honest [])
    (sqrt : K → K) (c : Cands K) (R R' : FRom K T B S) (hint : R.model.intrusive = false) (s : S)
    (hs : R.model.solver = some s) (hcom : Commute I setReg s) (states : TrainArg K) (inputs : Option (TrainArg K))
    (fitT fitB only : Bool) (numTest : Int) (margin : K) (tests : List (DiscTest K))
    (h : R.selectDiscrete I setReg G sqrt c states inputs fitT fitB only numTest margin tests = (R', .ok ())) :
    ∃ qs us R1 d tests' trains, fixLists states none inputs = .ok (qs, none, us) ∧
      R.process qs none us fitT fitB = (R1, .ok d) ∧ R'.rom = R1.rom ∧
      discCases sqrt margin numTest.toNat tests us R1.rom d = .ok (tests', trains) ∧
      SelectedAsTrained setReg s
        (fun s' N => (R.withSolver s').fit I states none inputs fitT fitB = (N, .ok ())) c only tests' trains R' := by
  rw [FRom.selectDiscrete] at h
  cases hc : R.rom.continuous with
  | true => rw [hc, if_pos rfl] at h; cases h
  | false =>
    rw [hc, if_neg (by simp), if_neg (by simp [hs])] at h
    cases hl : fixLists states none inputs with
    | error e => rw [hl] at h; cases h
    | ok x =>
      obtain ⟨qs, zs, us⟩ := x
      rw [hl] at h
      obtain ⟨n1, n2⟩ := isNone_of_fixLists hl
      have hz : zs = none := Option.isNone_iff_eq_none.mp n1
      subst hz
      simp only at h
      split at h
      · cases h
      · cases hci : checkSelInputs qs numTest.toNat us with
        | error e => rw [hci] at h; cases h
        | ok y =>
          rw [hci] at h
          simp only at h
          obtain ⟨R1, d, tests', trains, h1, h0, h2, h3⟩ := select_as_trained I G hO ho _ c only R R' hint s hs hcom qs none us
            fitT fitB (Or.inr rfl) h
          have hck := (selectLists_ok I setReg G _ c only R R' qs none us fitT fitB h).1
          have key : ∀ s' : S, (R.withSolver s').fit I states none inputs fitT fitB =
              (R.withSolver s').fitLists I qs none us fitT fitB := by
            intro s'
            rw [FRom.fit]
            change (match R.checkFitArgs _ _ with | .error e => _ | .ok () => _) = _
            rw [← n2]
            simp only [Option.isNone_none] at hck ⊢
            rw [hck]
            simp only [hl]
          refine ⟨qs, us, R1, d, tests', trains, rfl, h1, h0, h2, ?_⟩
          simp only [key]
          exact h3

theorem fixLists_many {qs : List (Snap K)} (hq : qs ≠ []) (zs us : Option (List (Snap K))) :
    fixLists (.many qs) (zs.map .many) (us.map .many) = .ok (qs, zs, us) := by
  cases qs with
  | nil => exact absurd rfl hq
  | cons q qs => cases zs <;> cases us <;> rfl

theorem fixContArgs_ok [Field K] [LinearOrder K] {times : OneOrMany (List K)} {states : TrainArg K}
    {ddts : Option (TrainArg K)} {inputs : Option (OneOrMany (K → List K))} {testTime : K} {qs : List (Snap K)}
    {zs : Option (List (Snap K))} {ts : List (List K)} {us : Option (List (K → List K))} {U : Option (List (Snap K))}
    (h : fixContArgs times states ddts inputs testTime = .ok (qs, zs, ts, us, U)) :
    ∃ single, states.isSingle = .ok single ∧ fixLists states ddts none = .ok (qs, zs, none) ∧ qs ≠ [] ∧
      fixTimes qs.length times = .ok ts ∧
      checkTimes ts qs = true ∧ fixFuns single qs.length inputs = .ok us ∧ funInputs ts us = .ok U ∧ 0 ≤ testTime := by
  simp only [fixContArgs, bind, Except.bind, pure, Except.pure] at h
  cases h1 : states.isSingle with
  | error e => rw [h1] at h; cases h
  | ok single =>
    rw [h1] at h
    simp only at h
    cases h2 : fixLists states ddts none with
    | error e => rw [h2] at h; cases h
    | ok x =>
      obtain ⟨qs', zs', o⟩ := x
      rw [h2] at h
      simp only at h
      cases h3 : fixTimes qs'.length times with
      | error e => rw [h3] at h; cases h
      | ok ts' =>
        rw [h3] at h
        simp only at h
        split at h
        · cases h
        · rename_i h4
          cases h5 : fixFuns single qs'.length inputs with
          | error e => rw [h5] at h; cases h
          | ok us' =>
            rw [h5] at h
            simp only at h
            cases h6 : funInputs ts' us' with
            | error e => rw [h6] at h; cases h
            | ok U' =>
              rw [h6] at h
              simp only at h
              split at h
              · cases h
              · rename_i h7
                simp only [Except.ok.injEq, Prod.mk.injEq] at h
                obtain ⟨rfl, rfl, rfl, rfl, rfl⟩ := h
                have ho : o = none := by
                  have := (isNone_of_fixLists h2).2
                  exact Option.isNone_iff_eq_none.mp this
                subst ho
                refine ⟨single, rfl, h2.symm ▸ rfl, ?_, h3, by simpa using h4, h5, h6, le_of_not_gt h7⟩
                rintro rfl
                simp only [fixLists, bind, Except.bind, pure, Except.pure] at h2
                cases states with
                | one Q => simp only [TrainArg.isSingle, TrainArg.toList, if_true] at h2; split at h2 <;> cases h2
                | many Qs =>
                  cases Qs with
                  | nil => cases h2
                  | cons q qs =>
                    simp only [TrainArg.isSingle, TrainArg.toList, Bool.false_eq_true, if_false] at h2
                    split at h2 <;> cases h2

/-- **C72.** A successful `fit_regselect_continuous` leaves the reduced-order model exactly as `fit` with the same
trajectories, and with the input functions evaluated over the time domains, does when the selected regularization is
set beforehand; and the selected regularization is best among the candidates in this sense. -/
theorem C72_continuous [Field K] [LinearOrder K] [FloorRing K] (I : SolverI K S)
    {setReg : S → Point K → S × Except Err Unit} {cfg : S → C} (G : Search K) (hO : Overwrites setReg cfg)
    (ho : ∀ st, (G.optimiser st).Honest []) (sim : Integrator K S) (p2 : PNorm K) (c : Cands K)
    (times : OneOrMany (List K)) (R R' : FRom K T B S) (hint : R.model.intrusive = false) (s : S)
    (hs : R.model.solver = some s) (hcom : Commute I setReg s) (states : TrainArg K) (ddts : Option (TrainArg K))
    (inputs : Option (OneOrMany (K → List K))) (fitT fitB only : Bool) (testTime margin : K) (tests : List (ContTest K))
    (h : R.selectContinuous I setReg G sim p2 c times states ddts inputs fitT fitB only testTime margin tests
      = (R', .ok ())) :
    ∃ qs zs ts us U R1 d tests' trains, fixContArgs times states ddts inputs testTime = .ok (qs, zs, ts, us, U) ∧
      R.process qs zs U fitT fitB = (R1, .ok d) ∧ R'.rom = R1.rom ∧
      contCases sim p2 margin testTime tests qs us ts R1.rom d = .ok (tests', trains) ∧
      SelectedAsTrained setReg s
        (fun s' N => (R.withSolver s').fit I (.many qs) (zs.map .many) (U.map .many) fitT fitB = (N, .ok ())) c only
        tests' trains R' := by
  rw [FRom.selectContinuous] at h
  cases hc : R.rom.continuous with
  | false => rw [hc, if_pos (by rfl)] at h; cases h
  | true =>
    rw [hc, if_neg (by simp), if_neg (by simp [hs])] at h
    cases hl : fixContArgs times states ddts inputs testTime with
    | error e => rw [hl] at h; cases h
    | ok x =>
      obtain ⟨qs, zs, ts, us, U⟩ := x
      rw [hl] at h
      simp only at h
      obtain ⟨single, -, -, hq, -⟩ := fixContArgs_ok hl
      obtain ⟨R1, d, tests', trains, h1, h0, h2, h3⟩ := select_as_trained I G hO ho _ c only R R' hint s hs hcom qs zs U
        fitT fitB (Or.inl hc) h
      have hck := (selectLists_ok I setReg G _ c only R R' qs zs U fitT fitB h).1
      have key : ∀ s' : S, (R.withSolver s').fit I (.many qs) (zs.map .many) (U.map .many) fitT fitB =
          (R.withSolver s').fitLists I qs zs U fitT fitB := by
        intro s'
        rw [FRom.fit]
        change (match R.checkFitArgs _ _ with | .error e => _ | .ok () => _) = _
        rw [Option.isNone_map, Option.isNone_map, hck]
        simp only [fixLists_many hq]
      refine ⟨qs, zs, ts, us, U, R1, d, tests', trains, rfl, h1, h0, h2, ?_⟩
      simp only [key]
      exact h3

end Opinf
