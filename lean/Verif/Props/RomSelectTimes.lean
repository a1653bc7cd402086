import Verif.Props.RomSelectTests

/-!
# C72: time domains and input functions of a regularization selection
-/

namespace Opinf

open List

variable {K T B S C : Type}

/-! ### Specification -/

/-- The object for the `i`-th trajectory: the same for all of them, or the `i`-th one. -/
def OneOrMany.at {α : Type} : OneOrMany α → Nat → Option α
  | .one a, _ => some a
  | .many as, i => as[i]?

/-! ### Helpers -/

theorem fixTimes_at {n : Nat} {times : OneOrMany (List K)} {ts : List (List K)} (h : fixTimes n times = .ok ts) (i : Nat)
    (hi : i < n) : ts[i]? = times.at i := by
  cases times with
  | one t =>
    cases t with
    | nil => cases h
    | cons x t =>
      obtain rfl := Except.ok.inj h
      simp [OneOrMany.at, hi]
  | many us =>
    cases us with
    | nil => cases h
    | cons x us =>
      obtain rfl := Except.ok.inj h
      rfl

theorem fixLists_single {states : TrainArg K} {zs us : Option (TrainArg K)} {qs : List (Snap K)}
    {zs' us' : Option (List (Snap K))} (hs : states.isSingle = .ok true)
    (h : fixLists states zs us = .ok (qs, zs', us')) : qs.length = 1 := by
  cases states with
  | one Q =>
    simp only [fixLists, bind, Except.bind, pure, Except.pure, TrainArg.isSingle, TrainArg.toList, if_true] at h
    split at h
    · cases h
    · split at h
      · cases h
      · simp only [Except.ok.injEq, Prod.mk.injEq] at h
        rw [← h.1]
        rfl
  | many Qs =>
    cases Qs with
    | nil => cases hs
    | cons q qs => cases hs

theorem fixFuns_at {single : Bool} {n : Nat} (hn : single = true → n = 1) {f : OneOrMany (K → List K)}
    {us : Option (List (K → List K))} (h : fixFuns single n (some f) = .ok us) :
    ∃ vs, us = some vs ∧ ∀ i < n, vs[i]? = f.at i := by
  cases f with
  | one u =>
    obtain rfl := Except.ok.inj h
    cases single with
    | false => exact ⟨replicate n u, rfl, fun i hi => by simp [OneOrMany.at, hi]⟩
    | true =>
      refine ⟨[u], rfl, fun i hi => ?_⟩
      have h0 : i = 0 := by have := hn rfl; omega
      subst h0
      rfl
  | many vs =>
    cases single with
    | true => cases h
    | false =>
      cases vs with
      | nil => cases h
      | cons v vs =>
        obtain rfl := Except.ok.inj h
        exact ⟨v :: vs, rfl, fun i _ => rfl⟩

/-! ### Arguments -/

/-- **C72.** What `fit_regselect_continuous` makes of its arguments: the `i`-th trajectory comes with the `i`-th time
domain (or the only one), which has one time for each snapshot, and with the `i`-th input function (or the only one); the
inputs it is trained with are the values of this function at these times. -/
theorem C72_continuous_arguments [Field K] [LinearOrder K] (times : OneOrMany (List K)) (states : TrainArg K)
    (ddts : Option (TrainArg K)) (inputs : Option (OneOrMany (K → List K))) (testTime : K) (qs : List (Snap K))
    (zs : Option (List (Snap K))) (ts : List (List K)) (us : Option (List (K → List K))) (U : Option (List (Snap K)))
    (h : fixContArgs times states ddts inputs testTime = .ok (qs, zs, ts, us, U)) :
    fixLists states ddts none = .ok (qs, zs, none) ∧ 0 ≤ testTime ∧ (∀ i < qs.length, ts[i]? = times.at i) ∧
    (∀ (i : Nat) q t, qs[i]? = some q → times.at i = some t → t.length = q.ncolumns) ∧
    (inputs = none → us = none ∧ U = none) ∧
    ∀ f, inputs = some f → ∃ vs Us, us = some vs ∧ U = some Us ∧ ∀ i < qs.length, vs[i]? = f.at i ∧
      ∀ u t, f.at i = some u → times.at i = some t → ∃ V, Us[i]? = some V ∧ V.columnList = t.map u := by
  obtain ⟨single, h1, h2, -, h3, h4, h5, h6, h7⟩ := fixContArgs_ok h
  have hn : single = true → qs.length = 1 := fun hs => fixLists_single (hs ▸ h1) h2
  refine ⟨h2, h7, fun i hi => fixTimes_at h3 i hi, ?_, ?_, ?_⟩
  · intro i q t hq ht
    have hi : i < qs.length := (List.getElem?_eq_some_iff.1 hq).1
    rw [checkTimes, all_eq_true] at h4
    have hz : (zip ts qs)[i]? = some (t, q) := by
      rw [getElem?_zip_eq_some]
      exact ⟨by rw [fixTimes_at h3 i hi]; exact ht, hq⟩
    simpa using h4 _ (mem_of_getElem? hz)
  · rintro rfl
    obtain rfl := Except.ok.inj h5
    exact ⟨rfl, (Except.ok.inj h6).symm⟩
  · rintro f rfl
    obtain ⟨vs, rfl, hvs⟩ := fixFuns_at hn h5
    rw [funInputs] at h6
    cases hm : (zip vs ts).mapM fun x => evalInputs x.1 x.2 with
    | error e => rw [hm] at h6; cases h6
    | ok Us =>
      rw [hm] at h6
      refine ⟨vs, Us, rfl, (Except.ok.inj h6).symm, fun i hi => ⟨hvs i hi, fun u t hu ht => ?_⟩⟩
      have hz : (zip vs ts)[i]? = some (u, t) := by
        rw [getElem?_zip_eq_some]
        exact ⟨by rw [hvs i hi]; exact hu, by rw [fixTimes_at h3 i hi]; exact ht⟩
      obtain ⟨hi', hz'⟩ := List.getElem?_eq_some_iff.1 hz
      have hF := mapM_ok_forall2.1 hm
      have hi2 : i < Us.length := by rw [← hF.length_eq]; exact hi'
      have := (forall₂_iff_get.mp hF).2 i hi' hi2
      simp only [get_eq_getElem] at this
      rw [hz'] at this
      exact ⟨Us[i], getElem?_eq_getElem hi2, C72_input_values u t _ this⟩

/-- **C72.** The model left by a successful `fit_regselect_continuous` follows every training trajectory: integrated from
its first encoded snapshot over its extended time domain, under its own input function, the solution does not break off
and (as long as it consists of numbers) stays near the snapshots. -/
theorem C72_continuous_followed [Field K] [LinearOrder K] [FloorRing K] (I : SolverI K S)
    {setReg : S → Point K → S × Except Err Unit} {cfg : S → C} (G : Search K) (hO : Overwrites setReg cfg)
    (ho : ∀ st, (G.optimiser st).Honest []) (sim : Integrator K S) (p2 : PNorm K) (c : Cands K)
    (times : OneOrMany (List K)) (R R' : FRom K T B S) (hint : R.model.intrusive = false) (s : S)
    (hs : R.model.solver = some s) (hcom : Commute I setReg s) (states : TrainArg K) (ddts : Option (TrainArg K))
    (inputs : Option (OneOrMany (K → List K))) (fitT fitB only : Bool) (testTime margin : K) (tests : List (ContTest K))
    (h : R.selectContinuous I setReg G sim p2 c times states ddts inputs fitT fitB only testTime margin tests
      = (R', .ok ())) :
    ∃ qs zs, fixLists states ddts none = .ok (qs, zs, none) ∧ 0 ≤ testTime ∧
      ∀ (i : Nat) q t, qs[i]? = some q → times.at i = some t → (∀ f, inputs = some f → (f.at i).isSome) →
        t.length = q.ncolumns ∧ ∃ k rows t' Q, R'.rom.encode1 q = .ok (.mat k rows) ∧
          extendTimes testTime t = .ok t' ∧
          sim R'.model ((Snap.mat k rows).columnList.headD []) t' (inputs.bind (·.at i)) = .ok Q ∧
          Q.length = t'.length ∧
          ∀ L, Q = finiteTraj L → (∀ q ∈ L, q.length = rows.length) → L ≠ [] →
            StaysNear rows.length (Snap.mat k rows).columnList margin L := by
  obtain ⟨qs, zs, ts, us, U, R1, d, tests', trains, h1, h2, h3, h4, w, s', v, -, -, -, ⟨-, errs, hsc, -⟩, -, -⟩ :=
    C72_continuous I G hO ho sim p2 c times R R' hint s hs hcom states ddts inputs fitT fitB only testTime margin tests h
  obtain ⟨a1, a2, a3, a4, a5, a6⟩ := C72_continuous_arguments times states ddts inputs testTime qs zs ts us U h1
  obtain ⟨⟨es, Ls, ts', e1, e2, e3, rfl⟩, -⟩ :=
    (C72_continuous_cases sim p2 margin testTime tests qs us ts R1.rom d tests' trains).1 h4
  refine ⟨qs, zs, a1, a2, ?_⟩
  intro i q t hq ht hf
  refine ⟨a4 i q t hq ht, ?_⟩
  obtain ⟨hi, rfl⟩ := List.getElem?_eq_some_iff.1 hq
  have hti := (a3 i hi).trans ht
  obtain ⟨hi2, rfl⟩ := List.getElem?_eq_some_iff.1 hti
  have hi3 : i < es.length := by rw [← e1.length_eq]; exact hi
  have hi4 : i < Ls.length := by rw [← e2.length_eq]; exact hi3
  have hi5 : i < ts'.length := by rw [← e3.length_eq]; exact hi2
  have b1 := (forall₂_iff_get.mp e1).2 i hi hi3
  have b2 := (forall₂_iff_get.mp e2).2 i hi3 hi4
  have b3 := (forall₂_iff_get.mp e3).2 i hi2 hi5
  simp only [get_eq_getElem] at b1 b2 b3
  have hu : (us.elim (replicate qs.length none) (·.map some))[i]? = some (inputs.bind (·.at i)) := by
    cases inputs with
    | none =>
      rw [(a5 rfl).1]
      simp [hi]
    | some f =>
      obtain ⟨vs, Us, rfl, -, c3⟩ := a6 f rfl
      obtain ⟨u, hu⟩ := Option.isSome_iff_exists.1 (hf f rfl)
      simp only [Option.elim, getElem?_map, (c3 i hi).1, Option.bind_some, hu, Option.map_some]
  have hz : (zip (zip es Ls) (zip (us.elim (replicate qs.length none) (·.map some)) ts'))[i]? =
      some ((es[i], Ls[i]), (inputs.bind (·.at i), ts'[i])) := by
    rw [getElem?_zip_eq_some, getElem?_zip_eq_some, getElem?_zip_eq_some]
    exact ⟨⟨getElem?_eq_getElem hi3, getElem?_eq_getElem hi4⟩, hu, getElem?_eq_getElem hi5⟩
  have hm : ((zip (zip es Ls) (zip (us.elim (replicate qs.length none) (·.map some)) ts')).map
      fun x => contTrain (S := S) sim p2 x.1.1 x.1.2 x.2.1 x.2.2)[i]? =
      some (contTrain sim p2 es[i] Ls[i] (inputs.bind (·.at i)) ts'[i]) := by
    rw [getElem?_map, hz]
    rfl
  obtain ⟨g1, g2⟩ := List.getElem?_eq_some_iff.1 hm
  have g3 : i < errs.length := by rw [← hsc.length_eq]; exact g1
  have g4 := (forall₂_iff_get.mp hsc).2 i g1 g3
  simp only [get_eq_getElem] at g4
  rw [g2] at g4
  generalize es[i] = e at *
  cases e with
  | vec xs => cases b2
  | mat k rows =>
    obtain ⟨Q, q1, q2, q3⟩ := g4
    refine ⟨k, rows, ts'[i], Q, by rw [h3]; exact b1, b3, q1, ?_, ?_⟩
    · by_contra hne
      simp only [contTrain, unstableCont] at q2
      rw [if_pos hne] at q2
      cases q2
    · rintro L rfl hL hne
      exact ((C72_continuous_trajectory sim p2 margin k rows Ls[i] b2 _ ts'[i] R'.model L q1 hL hne _).1
        ⟨_, q1, q2, q3⟩).2.1

/-- **C72, refused arguments.** `fit_regselect_continuous` leaves the reduced-order model as it was and raises
`AttributeError` for a fully discrete model or a model whose solver is not regularized, `DimensionalityError` if some
time domain does not have as many times as there are snapshots, and `ValueError` if `test_time_length` is negative. -/
theorem C72_continuous_refused [Field K] [LinearOrder K] [FloorRing K] (I : SolverI K S)
    (setReg : S → Point K → S × Except Err Unit) (G : Search K) (sim : Integrator K S) (p2 : PNorm K) (c : Cands K)
    (times : OneOrMany (List K)) (R : FRom K T B S) (states : TrainArg K) (ddts : Option (TrainArg K))
    (inputs : Option (OneOrMany (K → List K))) (fitT fitB only : Bool) (testTime margin : K) (tests : List (ContTest K)) :
    (R.rom.continuous = false ∨ R.model.solver = none →
      R.selectContinuous I setReg G sim p2 c times states ddts inputs fitT fitB only testTime margin tests
        = (R, .error .attribute)) ∧
    (R.rom.continuous = true → R.model.solver.isSome →
      ∀ single qs zs ts, states.isSingle = .ok single → fixLists states ddts none = .ok (qs, zs, none) →
        fixTimes qs.length times = .ok ts →
        ((∃ (i : Nat) (q : Snap K) (t : List K), qs[i]? = some q ∧ times.at i = some t ∧ t.length ≠ q.ncolumns) →
          R.selectContinuous I setReg G sim p2 c times states ddts inputs fitT fitB only testTime margin tests
            = (R, .error .dimensionality)) ∧
        ((∀ (i : Nat) (q : Snap K) (t : List K), qs[i]? = some q → times.at i = some t → t.length = q.ncolumns) →
          inputs = none → testTime < 0 →
          R.selectContinuous I setReg G sim p2 c times states ddts inputs fitT fitB only testTime margin tests
            = (R, .error .value))) := by
  constructor
  · rintro (hc | hs)
    · rw [FRom.selectContinuous, if_pos (by simp [hc])]
    · rw [FRom.selectContinuous]
      cases hc : R.rom.continuous with
      | false => rfl
      | true => rw [if_neg (by simp), if_pos (by simp [hs])]
  · intro hc hs single qs zs ts h1 h2 h3
    rw [FRom.selectContinuous, if_neg (by simp [hc]), if_neg (by rw [Option.isNone_iff_eq_none]; rintro h; rw [h] at hs; cases hs)]
    constructor
    · rintro ⟨i, q, t, hq, ht, hne⟩
      have hi : i < qs.length := (List.getElem?_eq_some_iff.1 hq).1
      have hck : checkTimes ts qs = false := by
        rw [checkTimes, all_eq_false]
        refine ⟨(t, q), mem_of_getElem? (i := i) ?_, by simpa using hne⟩
        rw [getElem?_zip_eq_some]
        exact ⟨by rw [fixTimes_at h3 i hi]; exact ht, hq⟩
      have : fixContArgs times states ddts inputs testTime = .error .dimensionality := by
        simp only [fixContArgs, bind, Except.bind, h1, h2, h3, hck]
        rfl
      rw [this]
    · rintro hall rfl hneg
      have hck : checkTimes ts qs = true := by
        rw [checkTimes, all_eq_true]
        rintro ⟨t, q⟩ hx
        obtain ⟨i, hi⟩ := mem_iff_getElem?.1 hx
        rw [getElem?_zip_eq_some] at hi
        have hl : i < qs.length := (List.getElem?_eq_some_iff.1 hi.2).1
        have := hall i q t hi.2 (by rw [← fixTimes_at h3 i hl]; exact hi.1)
        simpa using this
      have : fixContArgs times states ddts none testTime = .error .value := by
        simp only [fixContArgs, bind, Except.bind, h1, h2, h3, hck, fixFuns, funInputs]
        simp only [Bool.not_true, Bool.false_eq_true, if_false, pure, Except.pure]
        rw [if_pos hneg]
        rfl
      rw [this]

/-! ### The hypotheses can be satisfied -/

/-- Two trajectories over the same times 0, 1, with one input function for both. -/
example : (fixContArgs (.one [0, 1]) (.many [.mat 2 [[1, 3]], .mat 2 [[4, 5]]]) none
    (some (.one fun t : ℚ => [10 * t])) 4).toOption.map (fun x => (x.2.2.1, x.2.2.2.2.map fun U => U.map Snap.columnList))
    = some ([[0, 1], [0, 1]], some [[[0], [10]], [[0], [10]]]) := by decide +kernel

/-- Two time domains and two input functions. -/
example : (fixContArgs (.many [[0, 1], [2, 3]]) (.many [.mat 2 [[1, 3]], .mat 2 [[4, 5]]]) none
    (some (.many [fun t : ℚ => [10 * t], fun t => [-t]])) 4).toOption.map
      (fun x => (x.2.2.1, x.2.2.2.2.map fun U => U.map Snap.columnList))
    = some ([[0, 1], [2, 3]], some [[[0], [10]], [[-2], [-3]]]) := by decide +kernel

/-- A time domain that is too long is refused. -/
example : (fixContArgs (.many [[0, 1], [2, 3, 4]]) (.many [.mat 2 [[1, 3]], .mat 2 [[4, 5]]]) none none (4 : ℚ)).toOption
    = none := by decide +kernel

end Opinf
