import Verif.Model.InterpDdt
import Verif.Lemmas.Lstsq
import Verif.Props.RomFitOptimal

/-!
# C80, C81: interpolation-based time derivative estimation
-/

namespace Opinf

open List

variable {K : Type}

/-! ### Specification -/

/-- What is required of an interpolator: vector values of the right size, only data over the nodes are accepted, and the
interpolant passes through the data. -/
structure SplineLib.Lawful [Zero K] (L : SplineLib K) : Prop where
  size : ∀ ts rows f, L.make ts rows = .ok f → ∀ t ν, (f t ν).length = rows.length
  width : ∀ ts rows f, L.make ts rows = .ok f → ∀ row ∈ rows, row.length = ts.length
  nodal : ∀ ts rows f, L.make ts rows = .ok f → ∀ j < ts.length, f (ts.getD j 0) 0 = rows.map fun row => row.getD j 0

/-- The columns of `Y` are the values of the `ν`-th derivative of `f` at the times `ts`. -/
def Samples [Zero K] (f : K → Nat → List K) (r : Nat) (ts : List K) (ν : Nat) (Y : Snap K) : Prop :=
  ∃ rows : List (List K), Y = .mat ts.length rows ∧ rows.length = r ∧ (∀ row ∈ rows, row.length = ts.length) ∧
    ∀ j < ts.length, (rows.map fun row => row.getD j 0) = (range r).map fun i => (f (ts.getD j 0) ν).getD i 0

theorem samples_spline [Zero K] (f : K → Nat → List K) (r : Nat) (ts : List K) (ν : Nat) :
    Samples f r ts ν (sampleSpline f r ts ν) := by
  refine ⟨_, rfl, by simp, by simp, ?_⟩
  intro j hj
  rw [map_map]
  apply map_congr_left
  intro i _
  simp [getD_eq_getElem?_getD, getElem?_eq_getElem hj]

theorem samples_unique [Zero K] (f : K → Nat → List K) (r : Nat) (ts : List K) (ν : Nat) (Y : Snap K)
    (h : Samples f r ts ν Y) : Y = sampleSpline f r ts ν := by
  obtain ⟨rows, rfl, h1, h2, h3⟩ := h
  rw [sampleSpline]
  congr 1
  apply ext_getElem (by simp [h1])
  intro i hi hi'
  have hl := h2 _ (getElem_mem hi)
  apply ext_getElem (by simp [hl])
  intro j hj hj'
  have := congrArg (fun l => l[i]?) (h3 j (by omega))
  simp only [getElem?_map, getElem?_eq_getElem hi, Option.map_some] at this
  rw [getElem?_eq_getElem (by simpa [h1] using hi)] at this
  simp only [getElem_range, Option.map_some, Option.some.injEq, getD_eq_getElem?_getD,
    getElem?_eq_getElem hj, Option.getD_some] at this
  rw [this]
  simp [getElem?_eq_getElem (show j < ts.length by omega), getD_eq_getElem?_getD]

/-! ### Construction -/

/-- **C80.** The constructor accepts one-dimensional time domains and known interpolators, and remembers them. -/
theorem C80_create_iff (lib : String → SplineLib K) (times : Arg K) (c : SplineArg K) (new : Option (Arg K)) (E : ItpDdt K) :
    ItpDdt.create lib times c new = .ok E ↔
      times = .vec E.times ∧
      (c = .cls E.lib ∨ ∃ s, c = .name s ∧ s ∈ ["akima", "cubic", "pchip"] ∧ E.lib = lib s) ∧
      ((new = none ∧ E.newTimes = none) ∨
        ∃ t2, new = some (.vec t2) ∧ E.newTimes = some t2 ∧ t2 ≠ [] ∧ E.times ≠ []) := by
  obtain ⟨t, L, t2⟩ := E
  cases times with
  | scalar x => simp [ItpDdt.create]
  | mat n cs => simp [ItpDdt.create]
  | vec ts =>
    simp only [ItpDdt.create, bind, Except.bind, Arg.vec.injEq]
    have h1 : ∀ M, c.resolve lib = .ok M ↔ (c = .cls M ∨ ∃ s, c = .name s ∧ s ∈ ["akima", "cubic", "pchip"] ∧ M = lib s) := by
      intro M
      cases c with
      | cls N => simp [SplineArg.resolve]
      | name s =>
        simp only [SplineArg.resolve, reduceCtorEq, false_or, SplineArg.name.injEq, mem_cons, not_mem_nil, or_false]
        constructor
        · intro h
          split at h
          · rename_i hs; cases h; exact ⟨s, rfl, hs, rfl⟩
          · cases h
        · rintro ⟨s', rfl, hs, rfl⟩
          rw [if_pos hs]
    have h2 : ∀ u, checkNewTimes ts new = .ok u ↔ ((new = none ∧ u = none) ∨
        ∃ t2, new = some (.vec t2) ∧ u = some t2 ∧ t2 ≠ [] ∧ ts ≠ []) := by
      intro u
      cases new with
      | none => simp [checkNewTimes, eq_comm]
      | some a =>
        cases a with
        | scalar x => simp [checkNewTimes]
        | mat n cs => simp [checkNewTimes]
        | vec w =>
          simp only [checkNewTimes, reduceCtorEq, false_and, false_or, Option.some.injEq, Arg.vec.injEq,
            List.isEmpty_iff]
          constructor
          · intro h
            split at h
            · cases h
            · rename_i hs; push Not at hs; cases h; exact ⟨w, rfl, rfl, hs⟩
          · rintro ⟨w', rfl, rfl, h3, h4⟩
            rw [if_neg (by push Not; exact ⟨h3, h4⟩)]
    constructor
    · intro h
      cases hr : c.resolve lib with
      | error e => rw [hr] at h; cases h
      | ok M =>
        rw [hr] at h
        simp only at h
        cases hn : checkNewTimes ts new with
        | error e => rw [hn] at h; cases h
        | ok u =>
          rw [hn] at h
          cases h
          exact ⟨rfl, (h1 _).mp hr, (h2 _).mp hn⟩
    · rintro ⟨rfl, h3, h4⟩
      rw [(h1 _).mpr h3]
      simp only
      rw [(h2 _).mpr h4]
      rfl

/-! ### Estimation -/

section
variable [Zero K]

theorem checkStates_iff (E : ItpDdt K) (Q : Snap K) (rows : List (List K)) :
    E.checkStates Q = .ok rows ↔ Q = .mat E.times.length rows := by
  cases Q with
  | vec xs => simp [ItpDdt.checkStates]
  | mat k rs =>
    by_cases hk : k = E.times.length
    · simp [ItpDdt.checkStates, hk]
    · simp [ItpDdt.checkStates, hk]

/-- The inputs as an array with two dimensions. -/
def asRows : Snap K → Nat × List (List K)
  | .vec u => (u.length, [u])
  | .mat l rows => (l, rows)

omit [Zero K] in
theorem checkInputRows_iff (k : Nat) (U : Snap K) (us : List (List K)) :
    checkInputRows k U = .ok us ↔ asRows U = (k, us) := by
  cases U with
  | vec u => by_cases hk : u.length = k <;> simp [checkInputRows, asRows, hk]
  | mat l rs => by_cases hk : l = k <;> simp [checkInputRows, asRows, hk]

/-- The array over the new times: unchanged if there are none. -/
def MovedTo (E : ItpDdt K) (rows : List (List K)) (f : K → Nat → List K) (Y : Snap K) : Prop :=
  (E.newTimes = none → Y = .mat E.times.length rows) ∧ ∀ t2 ∈ E.newTimes, Samples f rows.length t2 0 Y

theorem movedTo_iff (E : ItpDdt K) (rows : List (List K)) (f : K → Nat → List K) (Y : Snap K) :
    MovedTo E rows f Y ↔ Y = E.moved rows f := by
  rw [MovedTo, ItpDdt.moved]
  cases h : E.newTimes with
  | none => simp
  | some t2 =>
    simp only [reduceCtorEq, false_implies, Option.mem_def, Option.some.injEq, forall_eq', true_and]
    exact ⟨samples_unique _ _ _ _ _, fun h => h ▸ samples_spline _ _ _ _⟩

/-- **C80.** `estimate(states)` succeeds exactly for two-dimensional states over the time domain which the interpolator
accepts; it returns the interpolant and its first derivative at the new times. -/
theorem C80_estimate_iff (E : ItpDdt K) (Q Y Z : Snap K) :
    E.estimate Q = .ok (Y, Z) ↔ ∃ rows f, Q = .mat E.times.length rows ∧ E.lib.make E.times rows = .ok f ∧
      MovedTo E rows f Y ∧ Samples f rows.length (E.newTimes.getD E.times) 1 Z := by
  simp only [movedTo_iff]
  constructor
  · intro h
    simp only [ItpDdt.estimate, bind, Except.bind] at h
    cases h1 : E.checkStates Q with
    | error e => rw [h1] at h; cases h
    | ok rows =>
      rw [h1] at h
      simp only at h
      cases h2 : E.lib.make E.times rows with
      | error e => rw [h2] at h; cases h
      | ok f =>
        rw [h2] at h
        cases h
        exact ⟨rows, f, (checkStates_iff E Q rows).mp h1, h2, rfl, samples_spline _ _ _ _⟩
  · rintro ⟨rows, f, rfl, h2, rfl, h4⟩
    rw [samples_unique _ _ _ _ _ h4]
    simp only [ItpDdt.estimate, bind, Except.bind]
    rw [(checkStates_iff E _ rows).mpr rfl]
    simp only
    rw [h2]
    rfl

/-- **C80.** The same with inputs: they are moved to the new times by an interpolant of their own. -/
theorem C80_estimate_inputs_iff (E : ItpDdt K) (Q U Y Z W : Snap K) :
    E.estimateWith Q U = .ok (Y, Z, W) ↔ E.estimate Q = .ok (Y, Z) ∧ (asRows U).1 = E.times.length ∧
      (E.newTimes = none → W = .mat E.times.length (asRows U).2) ∧
      ∀ t2 ∈ E.newTimes, ∃ g, E.lib.make E.times (asRows U).2 = .ok g ∧ Samples g (asRows U).2.length t2 0 W := by
  have hW : ∀ us, E.moveInputs us = .ok W ↔ (E.newTimes = none → W = .mat E.times.length us) ∧
      ∀ t2 ∈ E.newTimes, ∃ g, E.lib.make E.times us = .ok g ∧ Samples g us.length t2 0 W := by
    intro us
    rw [ItpDdt.moveInputs]
    cases h : E.newTimes with
    | none => simp [eq_comm]
    | some t2 =>
      simp only [reduceCtorEq, false_implies, Option.mem_def, Option.some.injEq, forall_eq', true_and, bind, Except.bind]
      cases hg : E.lib.make E.times us with
      | error e => simp
      | ok g =>
        simp only [Except.ok.injEq, exists_eq_left']
        constructor
        · intro h; cases h; exact samples_spline _ _ _ _
        · intro h; rw [samples_unique _ _ _ _ _ h]; rfl
  rw [← hW]
  simp only [ItpDdt.estimateWith, ItpDdt.estimate, bind, Except.bind]
  cases h1 : E.checkStates Q with
  | error e => simp
  | ok rows =>
    simp only
    cases h2 : checkInputRows E.times.length U with
    | error e =>
      simp only [reduceCtorEq, false_iff, not_and]
      intro _ h4
      have := (checkInputRows_iff E.times.length U (asRows U).2).mpr (by rw [← h4])
      rw [h2] at this
      cases this
    | ok us =>
      have h3 := (checkInputRows_iff _ _ _).mp h2
      rw [h3]
      simp only [true_and]
      cases h4 : E.lib.make E.times rows with
      | error e => simp
      | ok f =>
        simp only
        cases h5 : E.moveInputs us with
        | error e => simp
        | ok W' =>
          simp only [pure, Except.pure, Except.ok.injEq, Prod.mk.injEq]
          tauto

/-- **C80.** States that are not two-dimensional, or not aligned with the time domain, are refused, and so are
inputs that are not aligned. -/
theorem C80_refused (E : ItpDdt K) :
    (∀ xs U, E.estimate (.vec xs) = .error .dimensionality ∧ E.estimateWith (.vec xs) U = .error .dimensionality) ∧
    (∀ k rows U, k ≠ E.times.length → E.estimate (.mat k rows) = .error .dimensionality ∧
      E.estimateWith (.mat k rows) U = .error .dimensionality) ∧
    (∀ rows U, (asRows U).1 ≠ E.times.length →
      E.estimateWith (.mat E.times.length rows) U = .error .dimensionality) := by
  refine ⟨fun xs U => ⟨rfl, rfl⟩, ?_, ?_⟩
  · intro k rows U hk
    have : E.checkStates (.mat k rows) = .error .dimensionality := by rw [ItpDdt.checkStates, if_pos hk]
    constructor
    · simp [ItpDdt.estimate, this, bind, Except.bind]
    · simp [ItpDdt.estimateWith, this, bind, Except.bind]
  · intro rows U hU
    have h1 := (checkStates_iff E _ rows).mpr rfl
    have h2 : checkInputRows E.times.length U = .error .dimensionality := by
      cases U with
      | vec u => exact if_pos hU
      | mat l us => exact if_pos hU
    simp [ItpDdt.estimateWith, h1, h2, bind, Except.bind]

/-! ### `mask` -/

/-- **C80.** `mask(states)` is the first return value of `estimate(states)`. -/
theorem C80_mask_states (E : ItpDdt K) (Q Y Z : Snap K) (h : E.estimate Q = .ok (Y, Z)) : E.mask Q = .ok Y := by
  obtain ⟨rows, f, rfl, h2, h3, -⟩ := (C80_estimate_iff E Q Y Z).mp h
  rw [(movedTo_iff E rows f Y).mp h3, ItpDdt.mask, ItpDdt.moved]
  cases E.newTimes with
  | none => rfl
  | some t2 => simp [h2, bind, Except.bind, pure, Except.pure]

/-- **C80.** `mask(inputs)` is the last return value of `estimate(states, inputs)`, for two-dimensional inputs. -/
theorem C80_mask_inputs (E : ItpDdt K) (Q Y Z W : Snap K) (l : Nat) (us : List (List K))
    (h : E.estimateWith Q (.mat l us) = .ok (Y, Z, W)) : E.mask (.mat l us) = .ok W := by
  obtain ⟨-, h2, h3, h4⟩ := (C80_estimate_inputs_iff E Q _ Y Z W).mp h
  simp only [asRows] at h2 h3 h4
  subst h2
  rw [ItpDdt.mask]
  cases hn : E.newTimes with
  | none => simp [h3 hn]
  | some t2 =>
    obtain ⟨g, h5, h6⟩ := h4 t2 hn
    rw [samples_unique _ _ _ _ _ h6]
    simp [h5, bind, Except.bind, pure, Except.pure]

/-- **C80.** With new times `mask` refuses one-dimensional arrays, although `estimate` accepts them as inputs. -/
theorem C80_mask_one_dimensional (E : ItpDdt K) (u : List K) :
    E.mask (.vec u) = if E.newTimes.isSome then .error .value else .ok (.vec u) := by
  rw [ItpDdt.mask]
  cases E.newTimes <;> rfl

/-! ### Consequences for interpolators -/

/-- **C80.** New times taken from the time domain select the corresponding snapshots. -/
theorem C80_new_times_subset (E : ItpDdt K) (hL : E.lib.Lawful) (t2 : List K) (hn : E.newTimes = some t2)
    (idx : List Nat) (hidx : ∀ j ∈ idx, j < E.times.length) (ht : t2 = idx.map fun j => E.times.getD j 0)
    (rows : List (List K)) (Y Z : Snap K) (h : E.estimate (.mat E.times.length rows) = .ok (Y, Z)) :
    Y = .mat idx.length (rows.map fun row => idx.map fun j => row.getD j 0) := by
  obtain ⟨rows', f, h1, h2, h3, -⟩ := (C80_estimate_iff E _ Y Z).mp h
  cases h1
  have h4 := samples_unique _ _ _ _ _ (h3.2 t2 hn)
  rw [h4, sampleSpline, ht, length_map]
  congr 1
  apply ext_getElem (by simp)
  intro i hi hi'
  simp only [getElem_map, getElem_range, map_map]
  apply map_congr_left
  intro j hj
  rw [length_map] at hi'
  rw [Function.comp_apply, hL.nodal _ _ _ h2 j (hidx j hj)]
  simp [getD_eq_getElem?_getD, getElem?_map, getElem?_eq_getElem hi']

/-- **C80.** Passing the time domain itself as `new_time_domain` changes nothing. -/
theorem C80_same_times (ts : List K) (L : SplineLib K) (hL : L.Lawful) (Q : Snap K) :
    (ItpDdt.mk ts L (some ts)).estimate Q = (ItpDdt.mk ts L none).estimate Q := by
  cases Q with
  | vec xs => rfl
  | mat k rows =>
    by_cases hk : k = ts.length
    · subst hk
      simp only [ItpDdt.estimate, bind, Except.bind]
      rw [(checkStates_iff (ItpDdt.mk ts L (some ts)) _ rows).mpr rfl, (checkStates_iff (ItpDdt.mk ts L none) _ rows).mpr rfl]
      simp only
      cases h : L.make ts rows with
      | error e => rfl
      | ok f =>
        simp only [ItpDdt.moved, ItpDdt.outTimes, Option.getD_some, Option.getD_none]
        congr 2
        symm
        apply samples_unique
        refine ⟨rows, rfl, rfl, hL.width _ _ _ h, ?_⟩
        intro j hj
        rw [hL.nodal _ _ _ h j hj]
        apply ext_getElem (by simp)
        intro i hi hi'
        rw [length_map] at hi
        simp [getD_eq_getElem?_getD, getElem?_eq_getElem hi]
    · have h1 := ((C80_refused (ItpDdt.mk ts L (some ts))).2.1 k rows (.vec []) hk).1
      have h2 := ((C80_refused (ItpDdt.mk ts L none)).2.1 k rows (.vec []) hk).1
      rw [h1, h2]

/-- **C80.** If the interpolator reproduces the trajectory `q` with derivative `q'`, then states and derivatives are
exact at the new times. -/
theorem C80_exact (E : ItpDdt K) (rows : List (List K)) (f : K → Nat → List K) (hf : E.lib.make E.times rows = .ok f)
    (q q' : K → List K) (h0 : ∀ t, f t 0 = q t) (h1 : ∀ t, f t 1 = q' t) (hq : ∀ t, (q t).length = rows.length)
    (hq' : ∀ t, (q' t).length = rows.length) (t2 : List K) (hn : E.newTimes = some t2) (Y Z : Snap K)
    (h : E.estimate (.mat E.times.length rows) = .ok (Y, Z)) (j : Nat) (hj : j < t2.length) :
    ∃ A B, Y = .mat t2.length A ∧ Z = .mat t2.length B ∧ (A.map fun row => row.getD j 0) = q (t2.getD j 0) ∧
      (B.map fun row => row.getD j 0) = q' (t2.getD j 0) := by
  obtain ⟨rows', g, h2, h3, h4, h5⟩ := (C80_estimate_iff E _ Y Z).mp h
  cases h2
  rw [hf] at h3
  cases h3
  rw [hn, Option.getD_some] at h5
  obtain ⟨A, hA, -, -, hA'⟩ := h4.2 t2 hn
  obtain ⟨B, hB, -, -, hB'⟩ := h5
  refine ⟨A, B, hA, hB, ?_, ?_⟩
  · rw [hA' j hj, h0]
    apply ext_getElem (by simp [hq])
    intro i hi hi'
    generalize q (t2.getD j 0) = v at *
    simp [getD_eq_getElem?_getD, getElem?_eq_getElem hi']
  · rw [hB' j hj, h1]
    apply ext_getElem (by simp [hq'])
    intro i hi hi'
    generalize q' (t2.getD j 0) = v at *
    simp [getD_eq_getElem?_getD, getElem?_eq_getElem hi']

omit [Zero K] in
theorem samples_WF [Zero K] {f : K → Nat → List K} {r : Nat} {ts : List K} {ν : Nat} {Y : Snap K}
    (h : Samples f r ts ν Y) : Y.WF ∧ Y.ncolumns = ts.length := by
  obtain ⟨rows, rfl, -, h1, -⟩ := h
  exact ⟨h1, rfl⟩

/-- **C80.** States, derivatives and inputs stay aligned, so that the estimator may be used to train a reduced-order
model. -/
theorem C80_aligns (E : ItpDdt K) : E.toDdt.Aligns := by
  have key : ∀ Q Y Z, Q.WF → E.estimate Q = .ok (Y, Z) →
      Y.WF ∧ Z.WF ∧ Z.ncolumns = Y.ncolumns ∧ Y.ncolumns = (E.newTimes.getD E.times).length := by
    intro Q Y Z hQ h
    obtain ⟨rows, f, rfl, -, h2, h3⟩ := (C80_estimate_iff E Q Y Z).mp h
    have h4 := samples_WF h3
    cases hn : E.newTimes with
    | none =>
      rw [h2.1 hn]
      rw [hn] at h4
      exact ⟨hQ, h4.1, h4.2, rfl⟩
    | some t2 =>
      have h5 := samples_WF (h2.2 t2 hn)
      rw [hn] at h4
      exact ⟨h5.1, h4.1, h4.2.trans h5.2.symm, h5.2⟩
  constructor
  · intro Q Y Z hQ h
    obtain ⟨a, b, c, -⟩ := key Q Y Z hQ h
    exact ⟨a, b, c⟩
  · intro Q U Y Z V hQ hU h
    obtain ⟨h1, h2, h3, h4⟩ := (C80_estimate_inputs_iff E Q U Y Z V).mp h
    obtain ⟨a, b, c, d⟩ := key Q Y Z hQ h1
    cases hn : E.newTimes with
    | none =>
      rw [hn] at d
      have hV := h3 hn
      refine ⟨a, b, ?_, c, ?_⟩
      · rw [hV]
        cases U with
        | vec u => intro row hrow; rw [mem_singleton.mp hrow]; exact h2
        | mat l us => intro row hrow; exact (hU row hrow).trans h2
      · rw [hV]; exact d.symm
    | some t2 =>
      obtain ⟨g, -, h5⟩ := h4 t2 hn
      have h6 := samples_WF h5
      rw [hn] at d
      exact ⟨a, b, h6.1, c, h6.2.trans d.symm⟩

end

/-! ### A lawful interpolator: Lagrange polynomials -/

/-- The `j`-th Lagrange polynomial. -/
def lagrangeAt [Field K] (ts : List K) (j : Nat) (t : K) : K :=
  (((range ts.length).filter (· ≠ j)).map fun i => (t - ts.getD i 0) / (ts.getD j 0 - ts.getD i 0)).prod

/-- Its derivative. -/
def lagrangeSlope [Field K] (ts : List K) (j : Nat) (t : K) : K :=
  (((range ts.length).filter (· ≠ j)).map fun l => 1 / (ts.getD j 0 - ts.getD l 0) *
    ((((range ts.length).filter (· ≠ j)).filter (· ≠ l)).map fun i =>
      (t - ts.getD i 0) / (ts.getD j 0 - ts.getD i 0)).prod).sum

/-- Polynomial interpolation, like `scipy.interpolate.KroghInterpolator(axis=1)`; derivatives of order two and higher are left out. -/
def lagrangeLib [Field K] [DecidableEq K] : SplineLib K where
  make ts rows := if ts.Nodup ∧ ∀ row ∈ rows, row.length = ts.length then
      .ok fun t ν => rows.map fun row => dot row ((range ts.length).map fun j =>
        if ν = 0 then lagrangeAt ts j t else if ν = 1 then lagrangeSlope ts j t else 0)
    else .error .value

theorem lagrangeAt_node [Field K] (ts : List K) (hts : ts.Nodup) (j l : Nat) (hj : j < ts.length) (hl : l < ts.length) :
    lagrangeAt ts j (ts.getD l 0) = if l = j then 1 else 0 := by
  rw [lagrangeAt]
  by_cases h : l = j
  · rw [if_pos h]
    apply prod_eq_one
    intro x hx
    obtain ⟨i, hi, rfl⟩ := mem_map.mp hx
    obtain ⟨h1, h2⟩ := mem_filter.mp hi
    simp only [mem_range, ne_eq, decide_not, Bool.not_eq_eq_eq_not, Bool.not_true, decide_eq_false_iff_not] at h1 h2
    rw [h, div_self]
    rw [sub_ne_zero, Opinf.getD_eq_getElem _ _ hj, Opinf.getD_eq_getElem _ _ h1]
    intro he
    exact h2 ((hts.getElem_inj_iff).mp he).symm
  · rw [if_neg h]
    apply prod_eq_zero
    rw [mem_map]
    exact ⟨l, by simp [hl, h], by simp⟩

theorem lagrangeLib_lawful [Field K] [DecidableEq K] : (lagrangeLib (K := K)).Lawful := by
  constructor
  · intro ts rows f h t ν
    simp only [lagrangeLib] at h
    split at h
    · cases h; simp
    · cases h
  · intro ts rows f h
    simp only [lagrangeLib] at h
    split at h
    · rename_i h1; exact h1.2
    · cases h
  · intro ts rows f h l hl
    simp only [lagrangeLib] at h
    split at h
    · rename_i h1
      cases h
      apply map_congr_left
      intro row hrow
      rw [← dot_unit ts.length l row (h1.2 row hrow) hl]
      congr 1
      apply map_congr_left
      intro j hj
      simp only [if_true]
      exact lagrangeAt_node ts h1.1 j l (mem_range.mp hj) hl
    · cases h

/-- An estimator with three nodes and two new times. -/
def exItp : ItpDdt ℚ := ⟨[0, 1, 3], lagrangeLib, some [1, 2]⟩

/-- Quadratic trajectories are recovered: `t²` with derivative `2t`, and `1 + t`; one-dimensional inputs are moved too. -/
example : exItp.estimateWith (.mat 3 [[0, 1, 9], [1, 2, 4]]) (.vec [0, 2, 6]) =
    .ok (.mat 2 [[1, 4], [2, 3]], .mat 2 [[2, 4], [1, 1]], .mat 2 [[2, 4]]) := by decide +kernel

example : exItp.mask (.mat 3 [[0, 1, 9], [1, 2, 4]]) = .ok (.mat 2 [[1, 4], [2, 3]]) := by decide +kernel

example : (ItpDdt.create (fun _ => lagrangeLib) (.vec [0, 1, 3]) (.name "cubic") (some (.vec [1, (2 : ℚ)]))) = .ok exItp := by
  rw [C80_create_iff]
  exact ⟨rfl, Or.inr ⟨"cubic", rfl, by decide, rfl⟩, Or.inr ⟨_, rfl, rfl, by decide, by decide⟩⟩

/-- The hypotheses of `C80_new_times_subset`. -/
example : (ItpDdt.mk [0, 1, 3] lagrangeLib (some [3, (1 : ℚ)])).estimate (.mat 3 [[5, 6, 8]]) =
    .ok (.mat 2 [[8, 6]], .mat 2 [[1, 1]]) := by decide +kernel

/-! ### C81: verification -/

section
variable [Zero K]

theorem verifyLoop_fields (tests : List (List K × Snap K)) (E E' : ItpDdt K) (x : Except Err Unit)
    (h : E.verifyLoop tests = (E', x)) : E'.lib = E.lib ∧ E'.newTimes = E.newTimes ∧
      (E'.times = E.times ∨ ∃ p ∈ tests, E'.times = p.1) := by
  induction tests generalizing E with
  | nil => cases h; exact ⟨rfl, rfl, Or.inl rfl⟩
  | cons p rest ih =>
    obtain ⟨t, Q⟩ := p
    simp only [ItpDdt.verifyLoop] at h
    split at h
    · cases h; exact ⟨rfl, rfl, Or.inr ⟨(t, Q), mem_cons_self, rfl⟩⟩
    · obtain ⟨h1, h2, h3⟩ := ih _ h
      refine ⟨h1, h2, ?_⟩
      rcases h3 with h3 | ⟨p, hp, h3⟩
      · exact Or.inr ⟨(t, Q), mem_cons_self, h3⟩
      · exact Or.inr ⟨p, mem_cons_of_mem _ hp, h3⟩

/-- **C81.** A successful `verify()` leaves the estimator as it was. -/
theorem C81_verify_ok (E E' : ItpDdt K) (Q U : Snap K) (tests : List (List K × Snap K))
    (h : E.verify Q U tests = (E', .ok ())) : E' = E := by
  obtain ⟨ts, L, t2⟩ := E
  simp only [ItpDdt.verify, ItpDdt.baseVerify] at h
  cases hs : (ItpDdt.mk ts L none).verifyShapes Q U with
  | error e => rw [hs] at h; cases h
  | ok x =>
    rw [hs] at h
    simp only at h
    rcases hl : (ItpDdt.mk ts L none).verifyLoop tests with ⟨F, y⟩
    obtain ⟨h1, h2, -⟩ := verifyLoop_fields tests _ F y hl
    rw [hl] at h
    cases y with
    | error e => cases h
    | ok y =>
      cases h
      simp only at h1
      rw [h1]

/-- **C81.** After a `verify()` that raises, the new times are gone, and the time domain may be that of a test. -/
theorem C81_verify_error (E E' : ItpDdt K) (Q U : Snap K) (tests : List (List K × Snap K)) (e : Err)
    (h : E.verify Q U tests = (E', .error e)) : E'.newTimes = none ∧ E'.lib = E.lib ∧
      (E'.times = E.times ∨ ∃ p ∈ tests, E'.times = p.1) := by
  obtain ⟨ts, L, t2⟩ := E
  simp only [ItpDdt.verify, ItpDdt.baseVerify] at h
  cases hs : (ItpDdt.mk ts L none).verifyShapes Q U with
  | error e => rw [hs] at h; cases h; exact ⟨rfl, rfl, Or.inl rfl⟩
  | ok x =>
    rw [hs] at h
    simp only at h
    rcases hl : (ItpDdt.mk ts L none).verifyLoop tests with ⟨F, y⟩
    obtain ⟨h1, h2, h3⟩ := verifyLoop_fields tests _ F y hl
    rw [hl] at h
    cases y with
    | error e => cases h; exact ⟨h2, h1, h3⟩
    | ok y => cases h

/-- **C81.** `verify()` succeeds as soon as the interpolator accepts the random arrays and the test problems: the shape
checks never fail. -/
theorem C81_verify_passes (E : ItpDdt K) (r m : Nat) (Q U : List (List K)) (hr : Q.length = r) (hm : U.length = m)
    (tests : List (List K × Snap K)) (hQ : ∃ f, E.lib.make E.times Q = .ok f)
    (ht : ∀ p ∈ tests, ∃ rows f, p.2 = .mat p.1.length rows ∧ E.lib.make p.1 rows = .ok f) :
    E.verify (.mat E.times.length Q) (.mat E.times.length U) tests = (E, .ok ()) := by
  have hloop : ∀ (tests : List (List K × Snap K)) (F : ItpDdt K), F.lib = E.lib →
      (∀ p ∈ tests, ∃ rows f, p.2 = .mat p.1.length rows ∧ E.lib.make p.1 rows = .ok f) →
      ∃ G, F.verifyLoop tests = (G, .ok ()) := by
    intro tests
    induction tests with
    | nil => intro F _ _; exact ⟨F, rfl⟩
    | cons p rest ih =>
      intro F hF ht
      obtain ⟨t, A⟩ := p
      obtain ⟨rows, f, h1, h2⟩ := ht (t, A) mem_cons_self
      obtain ⟨G, hG⟩ := ih { F with times := t } hF fun p hp => ht p (mem_cons_of_mem _ hp)
      refine ⟨G, ?_⟩
      have : ({ F with times := t } : ItpDdt K).estimate A =
          .ok (({ F with times := t } : ItpDdt K).moved rows f, sampleSpline f rows.length
            (({ F with times := t } : ItpDdt K).newTimes.getD t) 1) := by
        rw [C80_estimate_iff]
        exact ⟨rows, f, h1, by rw [← h2, ← hF], (movedTo_iff _ _ _ _).mpr rfl, samples_spline _ _ _ _⟩
      simp only [ItpDdt.verifyLoop, this]
      exact hG
  obtain ⟨f, hf⟩ := hQ
  obtain ⟨ts, L, t2⟩ := E
  obtain ⟨G, hG⟩ := hloop tests (ItpDdt.mk ts L none) rfl ht
  have h1 : (ItpDdt.mk ts L none).estimate (.mat ts.length Q) =
      .ok (.mat ts.length Q, sampleSpline f Q.length ts 1) := by
    rw [C80_estimate_iff]
    exact ⟨Q, f, rfl, hf, (movedTo_iff _ _ _ _).mpr rfl, samples_spline _ _ _ _⟩
  have h2 : (ItpDdt.mk ts L none).estimateWith (.mat ts.length Q) (.mat ts.length U) =
      .ok (.mat ts.length Q, sampleSpline f Q.length ts 1, .mat ts.length U) := by
    rw [C80_estimate_inputs_iff]
    exact ⟨h1, rfl, fun _ => rfl, by simp⟩
  have h3 : (ItpDdt.mk ts L none).verifyShapes (.mat ts.length Q) (.mat ts.length U) = .ok () := by
    simp [ItpDdt.verifyShapes, h1, h2, bind, Except.bind, demand, Snap.nrowsOf, Snap.ncolumns, sampleSpline]
  obtain ⟨h4, -, -⟩ := verifyLoop_fields tests _ G _ hG
  simp only at h4
  simp only [ItpDdt.verify, ItpDdt.baseVerify, h3, hG]
  rw [h4]

end

/-- An interpolator whose options only fit arrays with two rows, like boundary conditions for two components. -/
def twoRowLib : SplineLib ℚ := ⟨fun ts rows => if rows.length = 2 then lagrangeLib.make ts rows else .error .value⟩

/-- **C81.** It is not true that `verify()` leaves every estimator as it was: if it raises, the same data give different
results before and after. -/
theorem C81_verify_not_harmless : ¬ ∀ (E E' : ItpDdt ℚ) (Q U : Snap ℚ) (tests : List (List ℚ × Snap ℚ)) (x : Except Err Unit)
    (A : Snap ℚ), E.verify Q U tests = (E', x) → E'.estimate A = E.estimate A := by
  intro h
  have := h ⟨[0, 1, 3], twoRowLib, some [1, 2]⟩ ⟨[0, 1, 3], twoRowLib, none⟩ (.mat 3 [[0, 0, 0]]) (.mat 3 []) [] (.error .value)
    (.mat 3 [[0, 1, 9], [1, 2, 4]]) rfl
  have h1 : ((ItpDdt.mk [0, 1, 3] twoRowLib (some [1, 2])).estimate (.mat 3 [[0, 1, 9], [1, 2, 4]])) =
      .ok (.mat 2 [[1, 4], [2, 3]], .mat 2 [[2, 4], [1, 1]]) := by decide +kernel
  have h2 : ((ItpDdt.mk [0, 1, 3] twoRowLib none).estimate (.mat 3 [[0, 1, 9], [1, 2, 4]])) =
      .ok (.mat 3 [[0, 1, 9], [1, 2, 4]], .mat 3 [[0, 2, 6], [1, 1, 1]]) := by decide +kernel
  rw [h1, h2] at this
  cases this

/-- A verification that passes, with a test problem over another time domain. -/
example : exItp.verify (.mat 3 [[0, 0, 1]]) (.mat 3 [[1, 1, 1]]) [([0, 1], .mat 2 [[0, 1]])] = (exItp, .ok ()) := by
  refine C81_verify_passes exItp 1 1 [[0, 0, 1]] [[1, 1, 1]] rfl rfl _ ⟨_, rfl⟩ ?_
  intro p hp
  rw [mem_singleton.mp hp]
  exact ⟨_, _, rfl, rfl⟩

end Opinf
