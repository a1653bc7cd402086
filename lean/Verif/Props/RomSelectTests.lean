import Verif.Props.RomHorizon

/-!
# C72: what the model selected by a regularization selection has been tested on
-/

namespace Opinf

open List

variable {K T B S C : Type}

/-! ### Specification -/

/-- No entry of a prediction is farther than the bound, if there is one, from the entry of the initial conditions. -/
def StaysWithin [Field K] [LinearOrder K] (q0 : List K) (bound : Option K) (L : List (List K)) : Prop :=
  ∀ b ∈ bound, ∀ q ∈ L, ∀ i < q0.length, |q.getD i 0 - q0.getD i 0| ≤ b

/-- The inputs of the `i`-th trajectory, as passed to the prediction. -/
def trajInput [Zero K] (us : Option (List (Snap K))) (i : Nat) : PredInput K :=
  us.elim .none fun V => .arr (V.getD i (.vec [])).toArg

/-! ### Helpers -/

theorem finiteTraj_stays [Field K] [LinearOrder K] (q0 : List K) (L : List (List K)) (hL : ∀ q ∈ L, q.length = q0.length)
    (b : K) : (finiteTraj L).Within q0 b ↔ ∀ q ∈ L, ∀ i < q0.length, |q.getD i 0 - q0.getD i 0| ≤ b := by
  constructor
  · intro h q hq i hi
    refine h (q.map .num) (mem_map.2 ⟨q, hq, rfl⟩) i _ _ ?_ ?_
    · rw [getElem?_map, getElem?_eq_getElem (by rw [hL q hq]; exact hi), getD_eq_getElem?_getD,
        getElem?_eq_getElem (by rw [hL q hq]; exact hi)]
      rfl
    · rw [getD_eq_getElem?_getD, getElem?_eq_getElem hi]
      rfl
  · intro h col hcol i y a h1 h2
    obtain ⟨q, hq, rfl⟩ := mem_map.1 hcol
    obtain ⟨hi, rfl⟩ := List.getElem?_eq_some_iff.1 h2
    have := h q hq i hi
    rw [getElem?_map, getElem?_eq_getElem (by rw [hL q hq]; exact hi)] at h1
    rw [getD_eq_getElem?_getD, getElem?_eq_getElem (by rw [hL q hq]; exact hi), getD_eq_getElem?_getD,
      getElem?_eq_getElem hi] at this
    simp only [Option.map_some, Option.some.injEq, Val.num.injEq] at h1
    rw [← h1]
    exact this

theorem predInputs_get [Zero K] (n : Nat) (us : Option (List (Snap K))) (hus : ∀ V ∈ us, V.length = n) (i : Nat)
    (hi : i < n) : (predInputs n us)[i]? = some (trajInput us i) := by
  cases us with
  | none => simp [predInputs, trajInput, hi]
  | some V =>
    have := hus V rfl
    simp only [predInputs, trajInput, Option.elim, getElem?_map]
    rw [getElem?_eq_getElem (by omega), getD_eq_getElem?_getD, getElem?_eq_getElem (by omega)]
    rfl

/-! ### Test cases -/

/-- **C72.** A model passes a test case of `fit_regselect_discrete` exactly if the encoded initial conditions are one
vector from which the model predicts the given number of iterations, under the inputs of the test case, and the
prediction stays within the bound. -/
theorem C72_discrete_test [Field K] [LinearOrder K] (t : DiscTest K) (e : Snap K) (M : Model K S) :
    (t.case e).Stable M ↔ ∃ q0 L, e = .vec q0 ∧ M.predict q0 t.niters t.inputs = .ok L ∧ StaysWithin q0 t.bound L := by
  cases e with
  | mat k rows => simp [RegCase.Stable, DiscTest.case]
  | vec q0 =>
    simp only [RegCase.Stable, DiscTest.case, discreteTest, Snap.vec.injEq]
    constructor
    · rintro ⟨Q, h1, h2⟩
      cases hp : M.predict q0 t.niters t.inputs with
      | error e => rw [hp] at h1; cases h1
      | ok L =>
        rw [hp] at h1
        obtain rfl : finiteTraj L = Q := Except.ok.inj h1
        refine ⟨q0, L, rfl, hp, fun b hb => ?_⟩
        have h3 := ((C49_test_case q0 t.bound (finiteTraj L) 0).1.1 h2).2 b hb
        exact (finiteTraj_stays q0 L (predict_columns hp) b).1 h3
    · rintro ⟨_, L, rfl, hp, h⟩
      refine ⟨finiteTraj L, by rw [hp]; rfl, (C49_test_case _ _ _ 0).1.2 ⟨finiteTraj_finite L, fun b hb => ?_⟩⟩
      exact (finiteTraj_stays _ L (predict_columns hp) b).2 (h b hb)

/-- **C72.** The same for `fit_regselect_continuous`, if the integration gives numbers: it must not break off. -/
theorem C72_continuous_test [Field K] [LinearOrder K] (sim : Integrator K S) (t : ContTest K) (q0 : List K)
    (M : Model K S) (L : List (List K)) (hL : ∀ q ∈ L, q.length = q0.length)
    (hs : sim M q0 t.times t.input = .ok (finiteTraj L)) :
    (t.case sim (.vec q0)).Stable M ↔ L.length = t.times.length ∧ StaysWithin q0 t.bound L := by
  have hfl : (finiteTraj L).length = L.length := by simp [finiteTraj]
  simp only [RegCase.Stable, ContTest.case, hs, Except.ok.injEq, exists_eq_left']
  rw [(C49_test_case q0 t.bound (finiteTraj L) t.times.length).2, hfl]
  simp only [finiteTraj_finite, true_and]
  refine and_congr_right fun _ => forall₂_congr fun b _ => ?_
  rw [finiteTraj_stays _ _ hL]

/-- **C72.** The training trajectories and test cases of `fit_regselect_continuous`: one training case for each
trajectory, made from its encoded snapshots, its stability limit, its input function and its extended time domain; and
one test case for each given one, started from its encoded initial conditions. -/
theorem C72_continuous_cases [Field K] [LinearOrder K] [FloorRing K] (sim : Integrator K S) (p2 : PNorm K)
    (margin testTime : K) (tests : List (ContTest K)) (qs : List (Snap K)) (us : Option (List (K → List K)))
    (ts : List (List K)) (R : Rom K T B) (d : TrainData K) (tests' : List (RegCase K (Model K S))) (trains : List (TrainCase K (Model K S))) :
    contCases sim p2 margin testTime tests qs us ts R d = .ok (tests', trains) ↔
      (∃ es Ls ts', Forall₂ (fun q e => R.encode1 q = .ok e) qs es ∧
        Forall₂ (fun e L => snapLimit margin e = .ok L) es Ls ∧
        Forall₂ (fun t t' => extendTimes testTime t = .ok t') ts ts' ∧
        trains = (zip (zip es Ls) (zip (us.elim (replicate qs.length none) (·.map some)) ts')).map
            fun x => contTrain sim p2 x.1.1 x.1.2 x.2.1 x.2.2) ∧
      Forall₂ (fun (t : ContTest K) c => ∃ q, R.encode1 (.vec t.ic) = .ok q ∧ c = t.case sim q) tests tests' := by
  have ht : R.contTests sim tests = .ok tests' ↔
      Forall₂ (fun (t : ContTest K) c => ∃ q, R.encode1 (.vec t.ic) = .ok q ∧ c = t.case sim q) tests tests' := by
    rw [Rom.contTests, mapM_ok_forall2]
    have : (fun (t : ContTest K) (c : RegCase K (Model K S)) => (R.encode1 (.vec t.ic)).map (t.case sim) = .ok c) =
        fun t c => ∃ q, R.encode1 (.vec t.ic) = .ok q ∧ c = t.case sim q := by
      funext t c
      cases R.encode1 (.vec t.ic) with
      | error e => simp [Except.map]
      | ok q => simp [Except.map, eq_comm]
    rw [this]
  rw [← ht]
  simp only [← mapM_ok_forall2]
  simp only [contCases]
  cases h1 : qs.mapM R.encode1 with
  | error e => simp
  | ok es =>
    have hl : es.length = qs.length := (mapM_ok_forall2.1 h1).length_eq.symm
    simp only [Except.ok.injEq]
    cases h2 : es.mapM (snapLimit margin) with
    | error e =>
      simp only [reduceCtorEq, false_iff, not_and, forall_exists_index]
      rintro es' Ls ts' ⟨rfl, h, -⟩
      rw [h2] at h
      cases h
    | ok Ls =>
      cases h3 : R.contTests (S := S) sim tests with
      | error e => simp
      | ok tests'' =>
        cases h4 : ts.mapM (extendTimes testTime) with
        | error e => simp
        | ok ts'' =>
          simp only [Except.ok.injEq, Prod.mk.injEq]
          constructor
          · rintro ⟨rfl, rfl⟩
            exact ⟨⟨es, Ls, ts'', rfl, h2, rfl, by rw [hl]⟩, rfl⟩
          · rintro ⟨⟨es', Ls', ts', rfl, g2, rfl, rfl⟩, rfl⟩
            rw [h2] at g2
            cases g2
            exact ⟨rfl, by rw [hl]⟩

/-! ### The selected model -/

/-- **C72.** The model left by a successful `fit_regselect_discrete` has passed every test case and is stable on every
training trajectory, predicted from its first encoded snapshot under its own inputs. -/
theorem C72_discrete_passed [Field K] [LinearOrder K] (I : SolverI K S) {setReg : S → Point K → S × Except Err Unit}
    {cfg : S → C} (G : Search K) (hO : Overwrites setReg cfg) (ho : ∀ st, (G.optimiser st).Honest [])
    (sqrt : K → K) (c : Cands K) (R R' : FRom K T B S) (hint : R.model.intrusive = false) (s : S)
    (hs : R.model.solver = some s) (hcom : Commute I setReg s) (states : TrainArg K) (inputs : Option (TrainArg K))
    (fitT fitB only : Bool) (numTest : Int) (margin : K) (tests : List (DiscTest K))
    (h : R.selectDiscrete I setReg G sqrt c states inputs fitT fitB only numTest margin tests = (R', .ok ())) :
    (∀ t ∈ tests, ∃ q0 L, R'.rom.encode1 (.vec t.ic) = .ok (.vec q0) ∧
      R'.model.predict q0 t.niters t.inputs = .ok L ∧ StaysWithin q0 t.bound L) ∧
    ∃ qs us, fixLists states none inputs = .ok (qs, none, us) ∧ ∀ (i : Nat) (q : Snap K), qs[i]? = some q →
      ∃ e, R'.rom.encode1 q = .ok e ∧ (e.WF → ∃ L,
        R'.model.predict (e.columnList.headD []) (e.columnList.length - 1 + numTest.toNat : Nat) (trajInput us i) = .ok L ∧
        StaysNear e.nrows e.columnList.dropLast margin L) := by
  obtain ⟨qs0, us0, R1, d, tests', trains, h1, h2, h3, h4, w, s', v, -, -, -, ⟨hst, -⟩, -, -⟩ :=
    C72_discrete I G hO ho sqrt c R R' hint s hs hcom states inputs fitT fitB only numTest margin tests h
  obtain ⟨hn, qs, us, es, g1, g2, g3⟩ :=
    C73_discrete_partial I G hO ho sqrt c R R' hint s hs hcom states inputs fitT fitB only numTest margin tests h
  have he : (qs0, (none : Option (List (Snap K))), us0) = (qs, none, us) := Except.ok.inj (h1.symm.trans g1)
  simp only [Prod.mk.injEq, true_and] at he
  obtain ⟨rfl, rfl⟩ := he
  have hcd : R.rom.continuous = false := by
    cases hc : R.rom.continuous with
    | false => rfl
    | true => rw [((C72_refused I setReg G sqrt c R states inputs fitT fitB only numTest margin tests).1 hc)] at h; cases h
  have hus : ∀ V ∈ us0, V.length = qs0.length := by
    intro V hV
    by_contra hne
    rw [(((C72_refused I setReg G sqrt c R states inputs fitT fitB only numTest margin tests).2.2 hcd
      (by rw [hs]; rfl) qs0 us0 h1).2 hn).1 V hV hne] at h
    cases h
  refine ⟨?_, qs0, us0, g1, ?_⟩
  · have ht := ((C72_discrete_cases sqrt margin numTest.toNat tests R R1 hcd qs0 us0 hus fitT fitB d h2
      tests' trains).1 h4).2
    intro t hmem
    obtain ⟨i, hi, rfl⟩ := mem_iff_getElem.mp hmem
    have hi2 : i < tests'.length := by rw [← ht.length_eq]; exact hi
    obtain ⟨e, e1, e2⟩ := (forall₂_iff_get.mp ht).2 i hi hi2
    simp only [get_eq_getElem] at e1 e2
    obtain ⟨q0, L, rfl, l2, l3⟩ := (C72_discrete_test _ e R'.model).1 (e2 ▸ hst _ (getElem_mem hi2))
    exact ⟨q0, L, by rw [h3]; exact e1, l2, l3⟩
  · intro i q hq
    obtain ⟨hi, rfl⟩ := List.getElem?_eq_some_iff.1 hq
    have hi2 : i < es.length := by rw [← g2.length_eq]; exact hi
    have g4 := (forall₂_iff_get.mp g2).2 i hi hi2
    simp only [get_eq_getElem] at g4
    refine ⟨es[i], g4, fun hW => ?_⟩
    have hz : (es[i], trajInput us0 i) ∈ zip es (predInputs qs0.length us0) := by
      rw [mem_iff_getElem?]
      refine ⟨i, ?_⟩
      rw [getElem?_zip_eq_some]
      exact ⟨getElem?_eq_getElem hi2, predInputs_get _ _ hus i hi⟩
    obtain ⟨L, l1, -, l3⟩ := g3 _ hz hW
    exact ⟨L, l1, l3⟩

/-- **C72.** The model left by a successful `fit_regselect_continuous` has passed every test case: integrated from the
encoded initial conditions under the inputs of the test case, the solution does not break off, is finite and stays within
the bound. -/
theorem C72_continuous_passed [Field K] [LinearOrder K] [FloorRing K] (I : SolverI K S)
    {setReg : S → Point K → S × Except Err Unit} {cfg : S → C} (G : Search K) (hO : Overwrites setReg cfg)
    (ho : ∀ st, (G.optimiser st).Honest []) (sim : Integrator K S) (p2 : PNorm K) (c : Cands K)
    (times : OneOrMany (List K)) (R R' : FRom K T B S) (hint : R.model.intrusive = false) (s : S)
    (hs : R.model.solver = some s) (hcom : Commute I setReg s) (states : TrainArg K) (ddts : Option (TrainArg K))
    (inputs : Option (OneOrMany (K → List K))) (fitT fitB only : Bool) (testTime margin : K) (tests : List (ContTest K))
    (h : R.selectContinuous I setReg G sim p2 c times states ddts inputs fitT fitB only testTime margin tests
      = (R', .ok ())) :
    ∀ t ∈ tests, ∃ q0 Q, R'.rom.encode1 (.vec t.ic) = .ok (.vec q0) ∧ sim R'.model q0 t.times t.input = .ok Q ∧
      Q.length = t.times.length ∧ Q.Finite ∧ ∀ b ∈ t.bound, Q.Within q0 b := by
  obtain ⟨qs, zs, ts, us, U, R1, d, tests', trains, h1, h2, h3, h4, w, s', v, -, -, -, ⟨hst, -⟩, -, -⟩ :=
    C72_continuous I G hO ho sim p2 c times R R' hint s hs hcom states ddts inputs fitT fitB only testTime margin tests h
  have ht := ((C72_continuous_cases sim p2 margin testTime tests qs us ts R1.rom d tests' trains).1 h4).2
  intro t hmem
  obtain ⟨i, hi, rfl⟩ := mem_iff_getElem.mp hmem
  have hi2 : i < tests'.length := by rw [← ht.length_eq]; exact hi
  obtain ⟨e, e1, e2⟩ := (forall₂_iff_get.mp ht).2 i hi hi2
  simp only [get_eq_getElem] at e1 e2
  have := e2 ▸ hst _ (getElem_mem hi2)
  cases e with
  | mat k rows => obtain ⟨Q, l1, -⟩ := this; cases l1
  | vec q0 =>
    obtain ⟨Q, l1, l2⟩ := this
    obtain ⟨m1, m2, m3⟩ := (C49_test_case q0 _ Q _).2.1 l2
    exact ⟨q0, Q, by rw [h3]; exact e1, l1, m1, m2, m3⟩

/-! ### The hypotheses can be satisfied -/

/-- Selection for the trajectory 1, 3, 9 of the tripling map, with a test case from 2 over three iterations. -/
def triplingTested (bound : ℚ) : FRom ℚ Unit Unit (Tik (Mat ℚ) ℚ) × Except Err Unit :=
  (bareRom false).selectDiscrete RegEx.tik (tikSetReg (RegEx.factory 1)) RegEx.search RegEx.root (.nums [0])
    (.one (.mat 3 [[1, 3, 9]])) none true true true 1 10 [⟨[2], 3, .none, some bound⟩]

/-- The test case is passed with bound 16, as the model goes from 2 to 18, and not with bound 15. -/
example : (triplingTested 16).2 = .ok () ∧ (triplingTested 15).2 = .error .runtime := by
  constructor <;> decide +kernel

example : ∃ q0 L, (triplingTested 16).1.rom.encode1 (.vec [2]) = .ok (.vec q0) ∧
    (triplingTested 16).1.model.predict q0 3 .none = .ok L ∧ StaysWithin q0 (some 16) L :=
  (C72_discrete_passed RegEx.tik (setReg := tikSetReg (RegEx.factory 1)) RegEx.search (tikSetReg_overwrites _)
    (fun _ => trivial) RegEx.root (.nums [0]) (bareRom false) (triplingTested 16).1 rfl ⟨none, .normal, none, none⟩ rfl
    (tik_commute _ _ _ _ rfl) (.one (.mat 3 [[1, 3, 9]])) none true true true 1 10 [⟨[2], 3, .none, some 16⟩]
    (Prod.ext (x := triplingTested 16) rfl (by decide +kernel))).1 _ mem_cons_self

/-- Selection for a constant trajectory, with a test case from 7 over the times 0, 5. -/
def constantTested (sim : Integrator ℚ (Tik (Mat ℚ) ℚ)) : FRom ℚ Unit Unit (Tik (Mat ℚ) ℚ) × Except Err Unit :=
  (bareRom true).selectContinuous RegEx.tik (tikSetReg (RegEx.factory 1)) RegEx.search sim oneNorm (.nums [0])
    (.one [0, 1]) (.one (.mat 2 [[1, 3]])) (some (.one (.mat 2 [[0, 0]]))) none true true true 4 10
    [⟨[7], [0, 5], none, some 1⟩]

/-- A solution that breaks off at time 5 does not pass. -/
example : (constantTested fun _ q0 t _ => .ok (t.map fun _ => q0.map .num)).2 = .ok () ∧
    (constantTested fun _ q0 t _ => .ok ((t.filter fun s => decide (s ≠ 5)).map fun _ => q0.map .num)).2 =
      .error .runtime := by
  constructor <;> decide +kernel

end Opinf
