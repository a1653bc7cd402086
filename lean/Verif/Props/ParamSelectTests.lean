import Verif.Props.ParamSelectOrder
import Verif.Props.RomSelectTimes

/-!
# C88: what the regularization selection of a parametric reduced-order model compares and checks
-/

namespace Opinf

open List

variable {K T B S C X : Type}

/-! ### Helpers -/

theorem stable_at (ev : EvalAt K X S) (mu : Par K) (c : RegCase K (Model K S)) (M : X) :
    (c.at ev mu).Stable M ↔ ∃ N, ev M mu = .ok N ∧ c.Stable N := by
  simp only [RegCase.Stable, RegCase.at]
  cases ev M mu with
  | error e => simp
  | ok N => simp

theorem scores_at (ev : EvalAt K X S) (mu : Par K) (c : TrainCase K (Model K S)) (M : X) (err : Val K) :
    (c.at ev mu).Scores M err ↔ ∃ N, ev M mu = .ok N ∧ c.Scores N err := by
  simp only [TrainCase.Scores, TrainCase.at]
  cases ev M mu with
  | error e => simp
  | ok N => simp

theorem forall₂_transfer {α β γ δ : Type} {P : α → β → Prop} {R : α → γ → Prop} {Q : γ → δ → Prop} {Q' : β → δ → Prop}
    (h : ∀ a b c d, P a b → R a c → (Q c d ↔ Q' b d)) {as : List α} {bs : List β} (hP : Forall₂ P as bs) :
    ∀ {cs : List γ}, Forall₂ R as cs → ∀ ds : List δ, Forall₂ Q cs ds ↔ Forall₂ Q' bs ds := by
  induction hP with
  | nil =>
    intro cs hR ds
    cases hR
    constructor <;> intro h <;> cases h <;> exact .nil
  | @cons a b as bs hab _ ih =>
    intro cs hR ds
    cases hR with
    | @cons _ c _ cs hac hR =>
      cases ds with
      | nil => constructor <;> intro h <;> cases h
      | cons d ds =>
        rw [forall₂_cons, forall₂_cons]
        exact and_congr (h a b c d hab hac) (ih hR ds)

theorem forall₂_zip_both {α β γ δ : Type} {R : α → β → Prop} {as : List α} {bs : List β} (h : Forall₂ R as bs) :
    ∀ (ps : List γ) (us : List δ), Forall₂ (fun (x : γ × α × δ) (y : γ × β × δ) => x.1 = y.1 ∧ R x.2.1 y.2.1 ∧ x.2.2 = y.2.2)
      (zip ps (zip as us)) (zip ps (zip bs us)) := by
  induction h with
  | nil => intro ps us; simp
  | @cons a b as bs hab _ ih =>
    intro ps us
    cases ps with
    | nil => simp
    | cons p ps =>
      cases us with
      | nil => simp
      | cons u us =>
        simp only [zip_cons_cons, forall₂_cons]
        exact ⟨⟨trivial, hab, trivial⟩, ih ps us⟩

theorem mapM_case {α β γ : Type} (f : α → Except Err β) (g : α → β → γ) (as : List α) (cs : List γ) :
    (as.mapM fun a => (f a).map (g a)) = .ok cs ↔ Forall₂ (fun a c => ∃ b, f a = .ok b ∧ c = g a b) as cs := by
  rw [mapM_ok_forall2]
  have : (fun (a : α) (c : γ) => (f a).map (g a) = .ok c) = fun a c => ∃ b, f a = .ok b ∧ c = g a b := by
    funext a c
    cases f a with
    | error e => simp [Except.map]
    | ok b => simp [Except.map, eq_comm]
  rw [this]

/-! ### Fully discrete models -/

/-- The model predicts the test case within its bound. -/
def PDiscTest.Passed [Field K] [LinearOrder K] (ev : EvalAt K X S) (R : Rom K T B) (M : X) (t : PDiscTest K) : Prop :=
  ∃ q0 N L, R.encode1 (.vec t.test.ic) = .ok (.vec q0) ∧ ev M t.mu = .ok N ∧
    N.predict q0 t.test.niters t.test.inputs = .ok L ∧ StaysWithin q0 t.test.bound L

/-- The model at the parameter value `x.1` predicts the trajectory with encoded snapshots `x.2.1` from its first one under
the inputs `x.2.2`; the prediction stays near the snapshots and has the relative error `err`. -/
def PFollows [Field K] [LinearOrder K] (ev : EvalAt K X S) (sqrt : K → K) (margin : K) (numTest : Nat) (M : X)
    (x : Par K × Snap K × PredInput K) (err : Val K) : Prop :=
  ∃ N L, ev M x.1 = .ok N ∧
    N.predict (x.2.1.columnList.headD []) (x.2.1.columnList.length - 1 + numTest : Nat) x.2.2 = .ok L ∧
    StaysNear x.2.1.nrows x.2.1.columnList.dropLast margin L ∧
    (frobeniusError sqrt (.mat x.2.1.nrows x.2.1.columnList.dropLast)
      (.mat x.2.1.nrows (L.take (x.2.1.columnList.length - 1)))).map Prod.snd = .ok err

/-- **C88.** What `fit_regselect_discrete` compares: a model scores `v` exactly if it passes all test cases, each at its
own parameter value, and predicts every training trajectory at the parameter value it belongs to, with mean relative
error `v`. -/
theorem C88_discrete_scores [Field K] [LinearOrder K] (ev : EvalAt K X S) (sqrt : K → K) (margin : K) (numTest : Nat)
    (tests : List (PDiscTest K)) (ps : List (Par K)) (R R1 : PRom K T B X) (hc : R.rom.continuous = false)
    (qs : List (Snap K)) (us : Option (List (Snap K))) (fitT fitB : Bool) (d : TrainData K)
    (hp : R.process qs none us fitT fitB = (R1, .ok d)) (es : List (Snap K))
    (hes : Forall₂ (fun q e => R1.rom.encode1 q = .ok e) qs es) (hWF : ∀ e ∈ es, e.WF)
    (tests' : List (RegCase K X)) (trains : List (TrainCase K X))
    (h : pDiscCases ev sqrt margin numTest tests ps us R1.rom d = .ok (tests', trains)) (M : X) (v : Val K) :
    Scores tests' trains M v ↔ (∀ t ∈ tests, t.Passed ev R1.rom M) ∧
      ∃ errs, Forall₂ (PFollows ev sqrt margin numTest M) (zip ps (zip es (predInputs qs.length us))) errs ∧
        v = Val.mean errs := by
  obtain ⟨-, -, hp'⟩ := (pprocess_eq R R1 qs none us fitT fitB d).1 hp
  obtain ⟨-, es', h1, h2, -, -⟩ := (C69_discrete _ _ hc qs us fitT fitB d).1 hp'
  obtain rfl : es' = es := right_unique_forall₂' (fun a b c (h1 : R1.rom.encode1 a = .ok b)
    (h2 : R1.rom.encode1 a = .ok c) => Except.ok.inj (h1.symm.trans h2)) h1 hes
  have hlen : d.states.length = qs.length := by rw [← h2.length_eq, h1.length_eq]
  simp only [pDiscCases, hlen] at h
  cases hm : (zip ps (zip d.states (predInputs qs.length us))).mapM fun x =>
      pDiscTrain ev sqrt margin numTest x.1 x.2.1 x.2.2 with
  | error e => rw [hm] at h; cases h
  | ok tr =>
    rw [hm] at h
    simp only at h
    cases ht : tests.mapM fun t => (R1.rom.encode1 (.vec t.test.ic)).map (t.case ev) with
    | error e => rw [ht] at h; cases h
    | ok te =>
      rw [ht] at h
      simp only [Except.map, Except.ok.injEq, Prod.mk.injEq] at h
      obtain ⟨rfl, rfl⟩ := h
      have hm := (mapM_case (fun x : Par K × Snap K × PredInput K =>
        discTrain (S := S) sqrt margin numTest x.2.1 x.2.2) (fun x c => c.at ev x.1) _ _).1 hm
      have ht2 := (mapM_case (fun t : PDiscTest K => R1.rom.encode1 (.vec t.test.ic)) (fun t => t.case ev) _ _).1 ht
      have hW : Forall₂ (fun e y => e.initCols = .ok y ∧ e.WF) es' d.states := by
        clear hm hlen hp' hp h1 hes
        generalize d.states = ys at h2
        induction h2 with
        | nil => exact .nil
        | cons h _ ih =>
          exact .cons ⟨h, hWF _ mem_cons_self⟩ (ih fun e he => hWF e (mem_cons_of_mem _ he))
      have hz := forall₂_zip_both hW.flip ps (predInputs qs.length us)
      refine and_congr ?_ (exists_congr fun errs => and_congr_left fun _ => ?_)
      · have key : ∀ (t : PDiscTest K) (e : Snap K), R1.rom.encode1 (.vec t.test.ic) = .ok e →
            ((t.case ev e).Stable M ↔ t.Passed ev R1.rom M) := by
          intro t e he
          simp only [PDiscTest.case, stable_at, C72_discrete_test, PDiscTest.Passed, he, Except.ok.injEq]
          constructor
          · rintro ⟨N, hN, q0, L, g1, g2, g3⟩; exact ⟨q0, N, L, g1, hN, g2, g3⟩
          · rintro ⟨q0, N, L, g1, hN, g2, g3⟩; exact ⟨N, hN, q0, L, g1, g2, g3⟩
        clear hz hW hm ht
        induction ht2 with
        | nil => simp
        | @cons t c ts cs htc _ ih =>
          obtain ⟨e, he, rfl⟩ := htc
          rw [forall_mem_cons, forall_mem_cons]
          exact and_congr (key t e he) ih
      · refine forall₂_transfer ?_ hz hm errs
        rintro ⟨mu, Y, U⟩ ⟨mu', e, U'⟩ c err ⟨rfl, ⟨hY, hw⟩, rfl⟩ ⟨c0, hc0, rfl⟩
        simp only at hc0 ⊢
        simp only [scores_at, PFollows]
        refine exists_congr fun N => ?_
        rw [C72_discrete_trajectory sqrt margin numTest e Y hw hY U c0 hc0 N err]
        constructor
        · rintro ⟨g1, L, g2⟩; exact ⟨L, g1, g2⟩
        · rintro ⟨L, g1, g2⟩; exact ⟨g1, L, g2⟩

theorem predInputs_length [Zero K] (n : Nat) (us : Option (List (Snap K))) (h : ∀ V, us = some V → V.length = n) :
    (predInputs n us).length = n := by
  cases us with
  | none => simp [predInputs]
  | some V => simp [predInputs, h V rfl]

/-- The number of input trajectories has been checked. -/
theorem selectDiscrete_inputs [Field K] [LinearOrder K] (P : ParI K X) (J : SelI K X) (ev : EvalAt K X S) (G : Search K)
    (sqrt : K → K) (c : Cands K) (R R' : PRom K T B X) (ps : List (Par K)) (qs : List (Snap K)) (us : Option (List (Snap K)))
    (fitT fitB only : Bool) (numTest : Int) (margin : K) (tests : List (PDiscTest K))
    (h : R.selectDiscrete P J ev G sqrt c ps qs us fitT fitB only numTest margin tests = (R', .ok ())) :
    checkSelInputs qs numTest.toNat us = .ok () := by
  obtain ⟨h1, h2, h3, -⟩ := selectDiscrete_ok P J ev G sqrt c R R' ps qs us fitT fitB only numTest margin tests h
  rw [PRom.selectDiscrete, if_neg (by simp [h1]), if_neg (by simp [h2]), if_neg (by omega)] at h
  cases hci : checkSelInputs qs numTest.toNat us with
  | error e => rw [hci] at h; cases h
  | ok y => rfl

/-- **C88.** A successful `fit_regselect_discrete` of an interpolatory reduced-order model leaves it as `fit` with the
selected regularization set beforehand, up to the solver of the model. -/
theorem C88_interpolatory_discrete_partial [Field K] [LinearOrder K] (lib : ItpLib K) (plain : S) (l2 : Int → S)
    (I : SolverI K S) {setReg : S → Point K → S × Except Err Unit} {cfg : S → C} (G : Search K)
    (hO : Overwrites setReg cfg) (ho : ∀ st, (G.optimiser st).Honest []) (sqrt : K → K) (c : Cands K)
    (R R' : PRom K T B (IModel K S)) (hint : R.model.base.intrusive = false) (s : S)
    (hs : R.model.base.solver = some s) (hcom : Commute I setReg s) (ps : List (Par K)) (hps : ps ≠ [])
    (hord : ∀ s ∈ R.model.base.slots, s.op.OrderedAt ps) (qs : List (Snap K)) (us : Option (List (Snap K)))
    (fitT fitB only : Bool) (numTest : Int) (margin : K) (tests : List (PDiscTest K))
    (h : R.selectDiscrete (iModelI lib plain l2 I) (iSelI lib plain l2 I setReg) (iEvalAt lib) G sqrt c ps qs us fitT
      fitB only numTest margin tests = (R', .ok ())) :
    R'.model.base.solver = some s ∧
    ∃ R1 d tests' trains, R.process qs none us fitT fitB = (R1, .ok d) ∧ R'.rom = R1.rom ∧ R'.ddt = R.ddt ∧
      pDiscCases (iEvalAt lib) sqrt margin numTest.toNat tests ps us R1.rom d = .ok (tests', trains) ∧
      PSelectedAsTrained setReg s (fun s' N => N.model.base.solver = some s ∧
        (R.withModel (R.model.withSolver s')).fit (iModelI lib plain l2 I) ps qs none us fitT fitB =
          (N.withModel (N.model.withSolver s'), .ok ())) c only tests' trains R' := by
  obtain ⟨-, -, -, h'⟩ := selectDiscrete_ok _ _ _ G sqrt c R R' ps qs us fitT fitB only numTest margin tests h
  exact C88_interpolatory_partial lib plain l2 I G hO ho _ c only R R' hint s hs hcom ps hps hord qs none us fitT fitB
    (Or.inr rfl) h'

/-! ### Time-continuous models -/

/-- What `fit_regselect_continuous` has checked. -/
theorem selectContinuous_ok [Field K] [LinearOrder K] [FloorRing K] (P : ParI K X) (J : SelI K X) (ev : EvalAt K X S)
    (G : Search K) (sim : Integrator K S) (p2 : PNorm K) (c : Cands K) (times : OneOrMany (List K))
    (R R' : PRom K T B X) (ps : List (Par K)) (qs : List (Snap K)) (zs : Option (List (Snap K)))
    (inputs : Option (OneOrMany (K → List K))) (fitT fitB only : Bool) (testTime margin : K) (tests : List (PContTest K))
    (h : R.selectContinuous P J ev G sim p2 c times ps qs zs inputs fitT fitB only testTime margin tests = (R', .ok ())) :
    R.rom.continuous = true ∧ J.hasSolver R.model = true ∧ ∃ ts us U,
      fixPContArgs times qs inputs testTime = .ok (ts, us, U) ∧
      R.selectLists P J G (pContCases ev sim p2 margin testTime tests ps qs us ts) c only ps qs zs U fitT fitB
        = (R', .ok ()) := by
  rw [PRom.selectContinuous] at h
  split at h
  · cases h
  rename_i h1
  split at h
  · cases h
  rename_i h2
  split at h
  · cases h
  rename_i ts us U h3
  exact ⟨by simpa using h1, by simpa using h2, ts, us, U, h3, h⟩

theorem fixPContArgs_ok [Field K] [LinearOrder K] {times : OneOrMany (List K)} {qs : List (Snap K)}
    {inputs : Option (OneOrMany (K → List K))} {testTime : K} {ts : List (List K)} {us : Option (List (K → List K))}
    {U : Option (List (Snap K))} (h : fixPContArgs times qs inputs testTime = .ok (ts, us, U)) :
    fixTimes qs.length times = .ok ts ∧ checkTimes ts qs = true ∧ fixFuns false qs.length inputs = .ok us ∧
      funInputs ts us = .ok U ∧ 0 ≤ testTime := by
  simp only [fixPContArgs, bind, Except.bind, pure, Except.pure] at h
  cases h3 : fixTimes qs.length times with
  | error e => rw [h3] at h; cases h
  | ok ts' =>
    rw [h3] at h
    simp only at h
    split at h
    · cases h
    · rename_i h4
      cases h5 : fixFuns false qs.length inputs with
      | error e => rw [h5] at h; cases h
      | ok us' =>
        rw [h5] at h
        simp only at h
        cases h6 : funInputs ts' us' with
        | error e => rw [h6] at h; cases h
        | ok U' =>
          rw [h6] at h
          simp only at h
          split at h
          · cases h
          · rename_i h7
            simp only [Except.ok.injEq, Prod.mk.injEq] at h
            obtain ⟨rfl, rfl, rfl⟩ := h
            exact ⟨rfl, by simpa using h4, rfl, h6, not_lt.1 h7⟩

/-- **C88.** What `fit_regselect_continuous` makes of its arguments: the `i`-th trajectory comes with the `i`-th time
domain (or the only one), which has one time for each snapshot, and with the `i`-th input function (or the only one); the
inputs it is trained with are the values of this function at these times. -/
theorem C88_continuous_arguments [Field K] [LinearOrder K] (times : OneOrMany (List K)) (qs : List (Snap K))
    (inputs : Option (OneOrMany (K → List K))) (testTime : K) (ts : List (List K)) (us : Option (List (K → List K)))
    (U : Option (List (Snap K))) (h : fixPContArgs times qs inputs testTime = .ok (ts, us, U)) :
    0 ≤ testTime ∧ (∀ i < qs.length, ts[i]? = times.at i) ∧
    (∀ (i : Nat) q t, qs[i]? = some q → times.at i = some t → t.length = q.ncolumns) ∧
    (inputs = none → us = none ∧ U = none) ∧
    ∀ f, inputs = some f → ∃ vs Us, us = some vs ∧ U = some Us ∧ ∀ i < qs.length, vs[i]? = f.at i ∧
      ∀ u t, f.at i = some u → times.at i = some t → ∃ V, Us[i]? = some V ∧ V.columnList = t.map u := by
  obtain ⟨h3, h4, h5, h6, h7⟩ := fixPContArgs_ok h
  refine ⟨h7, fun i hi => fixTimes_at h3 i hi, ?_, ?_, ?_⟩
  · intro i q t hq ht
    have hi : i < qs.length := (List.getElem?_eq_some_iff.1 hq).1
    rw [checkTimes, all_eq_true] at h4
    have hz : (zip ts qs)[i]? = some (t, q) := by
      rw [getElem?_zip_eq_some]
      exact ⟨by rw [fixTimes_at h3 i hi]; exact ht, hq⟩
    simpa using h4 _ (mem_of_getElem? hz)
  · rintro rfl
    obtain rfl := Except.ok.inj h5
    exact ⟨rfl, (Except.ok.inj h6).symm⟩
  · rintro f rfl
    obtain ⟨vs, rfl, hvs⟩ := fixFuns_at (by simp) h5
    rw [funInputs] at h6
    cases hm : (zip vs ts).mapM fun x => evalInputs x.1 x.2 with
    | error e => rw [hm] at h6; cases h6
    | ok Us =>
      rw [hm] at h6
      refine ⟨vs, Us, rfl, (Except.ok.inj h6).symm, fun i hi => ⟨hvs i hi, fun u t hu ht => ?_⟩⟩
      have hz : (zip vs ts)[i]? = some (u, t) := by
        rw [getElem?_zip_eq_some]
        exact ⟨by rw [hvs i hi]; exact hu, by rw [fixTimes_at h3 i hi]; exact ht⟩
      obtain ⟨hi', hz'⟩ := List.getElem?_eq_some_iff.1 hz
      have hF := mapM_ok_forall2.1 hm
      have hi2 : i < Us.length := by rw [← hF.length_eq]; exact hi'
      have := (forall₂_iff_get.mp hF).2 i hi' hi2
      simp only [get_eq_getElem] at this
      rw [hz'] at this
      exact ⟨Us[i], getElem?_eq_getElem hi2, C72_input_values u t _ this⟩

/-- **C88.** A successful `fit_regselect_continuous` of a parametric reduced-order model leaves it exactly as `fit` with
the selected regularization set beforehand. -/
theorem C88_continuous_partial [Field K] [LinearOrder K] [FloorRing K] (lib : ItpLib K) (I : SolverI K S)
    {setReg : S → Point K → S × Except Err Unit} {cfg : S → C} (G : Search K) (hO : Overwrites setReg cfg)
    (ho : ∀ st, (G.optimiser st).Honest []) (sim : Integrator K S) (p2 : PNorm K) (c : Cands K)
    (times : OneOrMany (List K)) (R R' : PRom K T B (PModel K S))
    (hint : R.model.intrusive = false) (s : S) (hs : R.model.solver = some s) (hcom : Commute I setReg s)
    (ps : List (Par K)) (hord : ∀ s ∈ R.model.slots, s.infer = true → s.op.OrderedAt ps) (qs : List (Snap K))
    (zs : Option (List (Snap K))) (inputs : Option (OneOrMany (K → List K))) (fitT fitB only : Bool)
    (testTime margin : K) (tests : List (PContTest K))
    (h : R.selectContinuous (pModelI lib I) (pSelI lib I setReg) (pEvalAt lib) G sim p2 c times ps qs zs inputs fitT fitB
      only testTime margin tests = (R', .ok ())) :
    ∃ ts us U R1 d tests' trains, fixPContArgs times qs inputs testTime = .ok (ts, us, U) ∧
      R.process qs zs U fitT fitB = (R1, .ok d) ∧ R'.rom = R1.rom ∧ R'.ddt = R.ddt ∧
      pContCases (pEvalAt lib) sim p2 margin testTime tests ps qs us ts R1.rom d = .ok (tests', trains) ∧
      PSelectedAsTrained setReg s (fun s' N => (R.withModel { R.model with solver := some s' }).fit (pModelI lib I) ps
        qs zs U fitT fitB = (N, .ok ())) c only tests' trains R' := by
  obtain ⟨hc, -, ts, us, U, h1, h2⟩ :=
    selectContinuous_ok _ _ _ G sim p2 c times R R' ps qs zs inputs fitT fitB only testTime margin tests h
  obtain ⟨R1, d, tests', trains, g⟩ :=
    C88_select_partial lib I G hO ho _ c only R R' hint s hs hcom ps hord qs zs U fitT fitB (Or.inl hc) h2
  exact ⟨ts, us, U, R1, d, tests', trains, h1, g⟩

/-- **C88.** The same for interpolatory models, up to the solver of the model. -/
theorem C88_interpolatory_continuous_partial [Field K] [LinearOrder K] [FloorRing K] (lib : ItpLib K) (plain : S)
    (l2 : Int → S) (I : SolverI K S) {setReg : S → Point K → S × Except Err Unit} {cfg : S → C} (G : Search K)
    (hO : Overwrites setReg cfg) (ho : ∀ st, (G.optimiser st).Honest []) (sim : Integrator K S) (p2 : PNorm K)
    (c : Cands K) (times : OneOrMany (List K)) (R R' : PRom K T B (IModel K S)) (hint : R.model.base.intrusive = false)
    (s : S) (hs : R.model.base.solver = some s) (hcom : Commute I setReg s) (ps : List (Par K)) (hps : ps ≠ [])
    (hord : ∀ s ∈ R.model.base.slots, s.op.OrderedAt ps) (qs : List (Snap K)) (zs : Option (List (Snap K)))
    (inputs : Option (OneOrMany (K → List K))) (fitT fitB only : Bool) (testTime margin : K) (tests : List (PContTest K))
    (h : R.selectContinuous (iModelI lib plain l2 I) (iSelI lib plain l2 I setReg) (iEvalAt lib) G sim p2 c times ps qs zs
      inputs fitT fitB only testTime margin tests = (R', .ok ())) :
    R'.model.base.solver = some s ∧
    ∃ ts us U R1 d tests' trains, fixPContArgs times qs inputs testTime = .ok (ts, us, U) ∧
      R.process qs zs U fitT fitB = (R1, .ok d) ∧ R'.rom = R1.rom ∧ R'.ddt = R.ddt ∧
      pContCases (iEvalAt lib) sim p2 margin testTime tests ps qs us ts R1.rom d = .ok (tests', trains) ∧
      PSelectedAsTrained setReg s (fun s' N => N.model.base.solver = some s ∧
        (R.withModel (R.model.withSolver s')).fit (iModelI lib plain l2 I) ps qs zs U fitT fitB =
          (N.withModel (N.model.withSolver s'), .ok ())) c only tests' trains R' := by
  obtain ⟨hc, -, ts, us, U, h1, h2⟩ :=
    selectContinuous_ok _ _ _ G sim p2 c times R R' ps qs zs inputs fitT fitB only testTime margin tests h
  obtain ⟨g0, R1, d, tests', trains, g⟩ := C88_interpolatory_partial lib plain l2 I G hO ho _ c only R R' hint s hs hcom
    ps hps hord qs zs U fitT fitB (Or.inl hc) h2
  exact ⟨g0, ts, us, U, R1, d, tests', trains, h1, g⟩

/-- The integration at the parameter value of the test case does not break off and stays within the bound. -/
def PContTest.Passed [Field K] [LinearOrder K] (ev : EvalAt K X S) (sim : Integrator K S) (R : Rom K T B) (M : X)
    (t : PContTest K) : Prop :=
  ∃ q0 N Q, R.encode1 (.vec t.test.ic) = .ok (.vec q0) ∧ ev M t.mu = .ok N ∧
    sim N q0 t.test.times t.test.input = .ok Q ∧ Q.length = t.test.times.length ∧ Q.Finite ∧
    ∀ b ∈ t.test.bound, Q.Within q0 b

/-- The integration gives numbers, one vector of the size of the initial state for each time it has reached, of which
there is at least one. -/
def Integrator.Numeric (sim : Integrator K S) : Prop :=
  ∀ N q0 t u Q, sim N q0 t u = .ok Q → ∃ L : List (List K), Q = finiteTraj L ∧ L ≠ [] ∧ ∀ q ∈ L, q.length = q0.length

/-- The model at the parameter value `x.1`, integrated from the first of the encoded snapshots `x.2.1` under the input
function `x.2.2.1` over the extended time domain `x.2.2.2`, does not break off, stays near the snapshots and has the
relative error `err` in time. -/
def PContFollows [Field K] [LinearOrder K] (ev : EvalAt K X S) (sim : Integrator K S) (p2 : PNorm K) (margin : K) (M : X)
    (x : Par K × Snap K × Option (K → List K) × List K) (err : Val K) : Prop :=
  ∃ N L, ev M x.1 = .ok N ∧
    sim N (x.2.1.columnList.headD []) x.2.2.2 x.2.2.1 = .ok (finiteTraj L) ∧ L.length = x.2.2.2.length ∧
    StaysNear x.2.1.nrows x.2.1.columnList margin L ∧
    (LpError (.fin p2) (.times (x.2.2.2.take x.2.1.columnList.length)) (.mat x.2.1.nrows x.2.1.columnList)
      (.mat x.2.1.nrows (L.take x.2.1.columnList.length))).map Prod.snd = .ok err

theorem finiteTraj_inj {L L' : List (List K)} (h : finiteTraj L = finiteTraj L') : L = L' := by
  have h1 : Function.Injective (Val.num (K := K)) := fun a b h => by cases h; rfl
  exact (map_injective_iff.2 (map_injective_iff.2 h1)) h

theorem headD_columnList_length [Zero K] (k : Nat) (rows : List (List K)) (hk : (Snap.mat k rows).columnList ≠ []) :
    ((Snap.mat k rows).columnList.headD []).length = rows.length := by
  cases k with
  | zero => simp [Snap.columnList, Snap.toArg, atleast2d, transpose] at hk
  | succ k => simp [Snap.columnList, Snap.toArg, atleast2d, transpose, range_succ_eq_map]

/-- **C88.** What `fit_regselect_continuous` compares, if the integration gives numbers: a model scores `v` exactly if it
passes all test cases, each at its own parameter value, and follows every training trajectory at the parameter value it
belongs to, over its own extended time domain and under its own input function, with mean relative error `v`. -/
theorem C88_continuous_scores [Field K] [LinearOrder K] [FloorRing K] (ev : EvalAt K X S) (sim : Integrator K S)
    (hsim : sim.Numeric) (p2 : PNorm K) (margin testTime : K) (tests : List (PContTest K)) (ps : List (Par K))
    (qs : List (Snap K)) (us : Option (List (K → List K))) (ts : List (List K)) (R : Rom K T B) (d : TrainData K)
    (tests' : List (RegCase K X)) (trains : List (TrainCase K X))
    (h : pContCases ev sim p2 margin testTime tests ps qs us ts R d = .ok (tests', trains)) :
    ∃ es ts', Forall₂ (fun q e => R.encode1 q = .ok e) qs es ∧
      Forall₂ (fun t t' => extendTimes testTime t = .ok t') ts ts' ∧
      ∀ M v, Scores tests' trains M v ↔ (∀ t ∈ tests, t.Passed ev sim R M) ∧
        ∃ errs, Forall₂ (PContFollows ev sim p2 margin M)
          (zip ps (zip es (zip (us.elim (replicate qs.length none) (·.map some)) ts'))) errs ∧ v = Val.mean errs := by
  rw [pContCases] at h
  split at h
  · cases h
  rename_i es h1
  split at h
  · cases h
  rename_i Ls h2
  split at h
  · cases h
  rename_i te h3
  split at h
  · cases h
  rename_i ts' h4
  simp only [Except.ok.injEq, Prod.mk.injEq] at h
  obtain ⟨rfl, rfl⟩ := h
  replace h1 := mapM_ok_forall2.1 h1
  replace h2 := mapM_ok_forall2.1 h2
  replace h3 := (mapM_case (fun t : PContTest K => R.encode1 (.vec t.test.ic)) (fun t => t.case ev sim) _ _).1 h3
  refine ⟨es, ts', h1, mapM_ok_forall2.1 h4, fun M v => ?_⟩
  have hl : es.length = qs.length := h1.length_eq.symm
  rw [hl]
  generalize zip (us.elim (replicate qs.length none) (·.map some)) ts' = ut
  refine and_congr ?_ (exists_congr fun errs => and_congr_left fun _ => ?_)
  · have key : ∀ (t : PContTest K) (e : Snap K), R.encode1 (.vec t.test.ic) = .ok e →
        ((t.case ev sim e).Stable M ↔ t.Passed ev sim R M) := by
      intro t e he
      simp only [PContTest.case, stable_at, PContTest.Passed, he, Except.ok.injEq]
      cases e with
      | mat k rows =>
        constructor
        · rintro ⟨N, -, Q, l1, -⟩; cases l1
        · rintro ⟨q0, N, Q, l1, -⟩; cases l1
      | vec q0 =>
        constructor
        · rintro ⟨N, hN, Q, l1, l2⟩
          obtain ⟨m1, m2, m3⟩ := (C49_test_case q0 _ Q _).2.1 l2
          exact ⟨q0, N, Q, rfl, hN, l1, m1, m2, m3⟩
        · rintro ⟨q, N, Q, g1, hN, l1, m⟩
          cases g1
          exact ⟨N, hN, Q, l1, (C49_test_case q0 _ Q _).2.2 m⟩
    clear h1 h2
    induction h3 with
    | nil => simp
    | @cons t c ts cs htc _ ih =>
      obtain ⟨e, he, rfl⟩ := htc
      rw [forall_mem_cons, forall_mem_cons]
      exact and_congr (key t e he) ih
  · have hz : Forall₂ (fun (x : Snap K × Val K) e => x.1 = e ∧ snapLimit margin e = .ok x.2) (zip es Ls) es := by
      clear h1 h3 hl
      induction h2 with
      | nil => exact .nil
      | cons h _ ih => exact .cons ⟨rfl, h⟩ ih
    have hz := forall₂_zip_both hz ps ut
    refine forall₂_transfer (R := fun x c => c = (contTrain sim p2 x.2.1.1 x.2.1.2 x.2.2.1 x.2.2.2).at ev x.1) ?_ hz ?_ errs
    · rintro ⟨mu, ⟨e, L0⟩, u, t⟩ ⟨mu', e', u', t'⟩ c err ⟨g1, ⟨g2, g3⟩, g4⟩ rfl
      simp only at g1 g2 g3 g4 ⊢
      obtain ⟨rfl, rfl⟩ := Prod.mk.inj g4
      subst g1 g2
      simp only [scores_at, PContFollows]
      refine exists_congr fun N => ?_
      cases e with
      | vec xs => cases g3
      | mat k rows =>
        have hlen : (Snap.mat k rows).columnList.length = k := by
          simp [Snap.columnList, Snap.toArg, atleast2d, transpose]
        have hk : (Snap.mat k rows).columnList ≠ [] := by
          intro h0
          have g3 : stabilityLimit rows.length margin (Snap.mat k rows).columnList = .ok L0 := g3
          rw [h0] at g3
          obtain ⟨D, hD, -⟩ := stabilityLimit_ok _ _ _ (by simp) _ g3
          obtain ⟨q1, hq1, -⟩ := hD.2
          cases hq1
        rw [hlen]
        have hr : (Snap.mat k rows).nrows = rows.length := rfl
        rw [hr]
        constructor
        · rintro ⟨hN, hsc⟩
          obtain ⟨Q, q1, q2, q3⟩ := hsc
          have q1 : sim N ((Snap.mat k rows).columnList.headD []) t u = .ok Q := q1
          obtain ⟨L, rfl, hne, hL⟩ := hsim _ _ _ _ _ q1
          rw [headD_columnList_length k rows hk] at hL
          obtain ⟨a, b, c⟩ := (C72_continuous_trajectory sim p2 margin k rows L0 g3 u t N L q1 hL hne err).1
            ⟨_, q1, q2, q3⟩
          exact ⟨L, hN, q1, a, b, c⟩
        · rintro ⟨L, hN, q1, a⟩
          obtain ⟨L', hLL, hne, hL⟩ := hsim _ _ _ _ _ q1
          obtain rfl : L = L' := finiteTraj_inj hLL
          rw [headD_columnList_length k rows hk] at hL
          exact ⟨hN, (C72_continuous_trajectory sim p2 margin k rows L0 g3 u t N L q1 hL hne err).2 a⟩
    · rw [forall₂_map_right_iff, forall₂_same]
      exact fun _ _ => rfl

/-! ### What the selected model does -/

/-- Passing the test cases and following the training trajectories. -/
def PDiscGood [Field K] [LinearOrder K] (ev : EvalAt K X S) (margin : K) (numTest : Nat) (tests : List (PDiscTest K))
    (ps : List (Par K)) (qs : List (Snap K)) (us : Option (List (Snap K))) (R : PRom K T B X) : Prop :=
  (∀ t ∈ tests, t.Passed ev R.rom R.model) ∧
  ∀ (i : Nat) q mu, qs[i]? = some q → ps[i]? = some mu → ∃ e N L, R.rom.encode1 q = .ok e ∧ ev R.model mu = .ok N ∧
    N.predict (e.columnList.headD []) (e.columnList.length - 1 + numTest : Nat) (trajInput us i) = .ok L ∧
    StaysNear e.nrows e.columnList.dropLast margin L

theorem pDiscGood_of_scores [Field K] [LinearOrder K] (ev : EvalAt K X S) (sqrt : K → K) (margin : K) (numTest : Nat)
    (tests : List (PDiscTest K)) (ps : List (Par K)) (R R1 R' : PRom K T B X) (hc : R.rom.continuous = false)
    (qs : List (Snap K)) (us : Option (List (Snap K))) (fitT fitB : Bool) (d : TrainData K)
    (hp : R.process qs none us fitT fitB = (R1, .ok d)) (hR : R'.rom = R1.rom)
    (hin : checkSelInputs qs numTest us = .ok ())
    (hWF : ∀ q ∈ qs, ∀ e, R'.rom.encode1 q = .ok e → e.WF)
    (tests' : List (RegCase K X)) (trains : List (TrainCase K X))
    (h : pDiscCases ev sqrt margin numTest tests ps us R1.rom d = .ok (tests', trains)) (v : Val K)
    (hsc : Scores tests' trains R'.model v) : PDiscGood ev margin numTest tests ps qs us R' := by
  obtain ⟨-, -, hp'⟩ := (pprocess_eq R R1 qs none us fitT fitB d).1 hp
  obtain ⟨-, es, h1, -⟩ := (C69_discrete _ _ hc qs us fitT fitB d).1 hp'
  have hWF' : ∀ e ∈ es, e.WF := by
    intro e he
    obtain ⟨i, hi, rfl⟩ := mem_iff_getElem.1 he
    have hi2 : i < qs.length := by rw [h1.length_eq]; exact hi
    have := (forall₂_iff_get.mp h1).2 i hi2 hi
    simp only [get_eq_getElem] at this
    exact hWF _ (getElem_mem hi2) _ (by rw [hR]; exact this)
  obtain ⟨g1, errs, g2, -⟩ := (C88_discrete_scores ev sqrt margin numTest tests ps R R1 hc qs us fitT fitB d hp es h1 hWF'
    tests' trains h R'.model v).1 hsc
  have hus : ∀ V ∈ us, V.length = qs.length := by
    rintro V hV
    cases hV
    rw [checkSelInputs] at hin
    by_contra hne
    rw [if_pos hne] at hin
    cases hin
  refine ⟨by rw [hR]; exact g1, fun i q mu hq hmu => ?_⟩
  obtain ⟨hi, rfl⟩ := List.getElem?_eq_some_iff.1 hq
  have hi2 : i < es.length := by rw [← h1.length_eq]; exact hi
  have b1 := (forall₂_iff_get.mp h1).2 i hi hi2
  simp only [get_eq_getElem] at b1
  have hz : (zip ps (zip es (predInputs qs.length us)))[i]? = some (mu, es[i], trajInput us i) := by
    rw [getElem?_zip_eq_some, getElem?_zip_eq_some]
    exact ⟨hmu, getElem?_eq_getElem hi2, predInputs_get _ _ hus i hi⟩
  obtain ⟨k1, k2⟩ := List.getElem?_eq_some_iff.1 hz
  have k3 : i < errs.length := by rw [← g2.length_eq]; exact k1
  have k4 := (forall₂_iff_get.mp g2).2 i k1 k3
  simp only [get_eq_getElem] at k4
  rw [k2] at k4
  obtain ⟨N, L, l1, l2, l3, -⟩ := k4
  exact ⟨es[i], N, L, by rw [hR]; exact b1, l1, l2, l3⟩

/-- **C88.** The parametric reduced-order model left by a successful `fit_regselect_discrete` has passed every test case
at its parameter value and predicts every training trajectory at the parameter value it belongs to, staying near the
snapshots. -/
theorem C88_discrete_passed [Field K] [LinearOrder K] (lib : ItpLib K) (I : SolverI K S)
    {setReg : S → Point K → S × Except Err Unit} {cfg : S → C} (G : Search K) (hO : Overwrites setReg cfg)
    (ho : ∀ st, (G.optimiser st).Honest []) (sqrt : K → K) (c : Cands K) (R R' : PRom K T B (PModel K S))
    (hint : R.model.intrusive = false) (s : S) (hs : R.model.solver = some s) (hcom : Commute I setReg s)
    (ps : List (Par K)) (hord : ∀ s ∈ R.model.slots, s.infer = true → s.op.OrderedAt ps) (qs : List (Snap K))
    (us : Option (List (Snap K))) (fitT fitB only : Bool) (numTest : Int) (margin : K) (tests : List (PDiscTest K))
    (h : R.selectDiscrete (pModelI lib I) (pSelI lib I setReg) (pEvalAt lib) G sqrt c ps qs us fitT fitB only numTest
      margin tests = (R', .ok ())) (hWF : ∀ q ∈ qs, ∀ e, R'.rom.encode1 q = .ok e → e.WF) :
    PDiscGood (pEvalAt lib) margin numTest.toNat tests ps qs us R' := by
  obtain ⟨hc, -, -, -⟩ := selectDiscrete_ok _ _ _ G sqrt c R R' ps qs us fitT fitB only numTest margin tests h
  have hin := selectDiscrete_inputs _ _ _ G sqrt c R R' ps qs us fitT fitB only numTest margin tests h
  obtain ⟨R1, d, tests', trains, h1, h2, -, h3, w, s', v, -, -, -, h4, -⟩ := C88_discrete_partial lib I G hO ho sqrt c R R'
    hint s hs hcom ps hord qs us fitT fitB only numTest margin tests h
  exact pDiscGood_of_scores _ sqrt margin _ tests ps R R1 R' hc qs us fitT fitB d h1 h2 hin hWF tests' trains h3 v h4

/-- **C88.** The same for interpolatory models. -/
theorem C88_interpolatory_discrete_passed [Field K] [LinearOrder K] (lib : ItpLib K) (plain : S) (l2 : Int → S)
    (I : SolverI K S) {setReg : S → Point K → S × Except Err Unit} {cfg : S → C} (G : Search K)
    (hO : Overwrites setReg cfg) (ho : ∀ st, (G.optimiser st).Honest []) (sqrt : K → K) (c : Cands K)
    (R R' : PRom K T B (IModel K S)) (hint : R.model.base.intrusive = false) (s : S)
    (hs : R.model.base.solver = some s) (hcom : Commute I setReg s) (ps : List (Par K)) (hps : ps ≠ [])
    (hord : ∀ s ∈ R.model.base.slots, s.op.OrderedAt ps) (qs : List (Snap K)) (us : Option (List (Snap K)))
    (fitT fitB only : Bool) (numTest : Int) (margin : K) (tests : List (PDiscTest K))
    (h : R.selectDiscrete (iModelI lib plain l2 I) (iSelI lib plain l2 I setReg) (iEvalAt lib) G sqrt c ps qs us fitT
      fitB only numTest margin tests = (R', .ok ())) (hWF : ∀ q ∈ qs, ∀ e, R'.rom.encode1 q = .ok e → e.WF) :
    PDiscGood (iEvalAt lib) margin numTest.toNat tests ps qs us R' := by
  obtain ⟨hc, -, -, -⟩ := selectDiscrete_ok _ _ _ G sqrt c R R' ps qs us fitT fitB only numTest margin tests h
  have hin := selectDiscrete_inputs _ _ _ G sqrt c R R' ps qs us fitT fitB only numTest margin tests h
  obtain ⟨-, R1, d, tests', trains, h1, h2, -, h3, w, s', v, -, -, -, h4, -⟩ := C88_interpolatory_discrete_partial lib plain
    l2 I G hO ho sqrt c R R' hint s hs hcom ps hps hord qs us fitT fitB only numTest margin tests h
  exact pDiscGood_of_scores _ sqrt margin _ tests ps R R1 R' hc qs us fitT fitB d h1 h2 hin hWF tests' trains h3 v h4

/-- Passing the test cases and following the training trajectories, time-continuous models. -/
def PContGood [Field K] [LinearOrder K] [FloorRing K] (ev : EvalAt K X S) (sim : Integrator K S) (margin testTime : K)
    (tests : List (PContTest K)) (times : OneOrMany (List K)) (ps : List (Par K)) (qs : List (Snap K))
    (inputs : Option (OneOrMany (K → List K))) (R : PRom K T B X) : Prop :=
  (∀ t ∈ tests, t.Passed ev sim R.rom R.model) ∧
  ∀ (i : Nat) q mu t, qs[i]? = some q → ps[i]? = some mu → times.at i = some t →
    (∀ f, inputs = some f → (f.at i).isSome) →
    t.length = q.ncolumns ∧ ∃ e N L t', R.rom.encode1 q = .ok e ∧ ev R.model mu = .ok N ∧ extendTimes testTime t = .ok t' ∧
      sim N (e.columnList.headD []) t' (inputs.bind (·.at i)) = .ok (finiteTraj L) ∧ L.length = t'.length ∧
      StaysNear e.nrows e.columnList margin L

theorem pContGood_of_scores [Field K] [LinearOrder K] [FloorRing K] (ev : EvalAt K X S) (sim : Integrator K S)
    (hsim : sim.Numeric) (p2 : PNorm K) (margin testTime : K) (tests : List (PContTest K)) (times : OneOrMany (List K))
    (ps : List (Par K)) (qs : List (Snap K)) (inputs : Option (OneOrMany (K → List K))) (ts : List (List K))
    (us : Option (List (K → List K))) (U : Option (List (Snap K)))
    (hf : fixPContArgs times qs inputs testTime = .ok (ts, us, U)) (R1 R' : PRom K T B X) (hR : R'.rom = R1.rom)
    (d : TrainData K) (tests' : List (RegCase K X)) (trains : List (TrainCase K X))
    (h : pContCases ev sim p2 margin testTime tests ps qs us ts R1.rom d = .ok (tests', trains)) (v : Val K)
    (hsc : Scores tests' trains R'.model v) : PContGood ev sim margin testTime tests times ps qs inputs R' := by
  obtain ⟨-, a3, a4, a5, a6⟩ := C88_continuous_arguments times qs inputs testTime ts us U hf
  obtain ⟨es, ts', h1, h2, hs⟩ :=
    C88_continuous_scores ev sim hsim p2 margin testTime tests ps qs us ts R1.rom d tests' trains h
  obtain ⟨g1, errs, g2, -⟩ := (hs R'.model v).1 hsc
  refine ⟨by rw [hR]; exact g1, fun i q mu t hq hmu ht hfi => ⟨a4 i q t hq ht, ?_⟩⟩
  obtain ⟨hi, rfl⟩ := List.getElem?_eq_some_iff.1 hq
  have hti := (a3 i hi).trans ht
  obtain ⟨hi2, rfl⟩ := List.getElem?_eq_some_iff.1 hti
  have hi3 : i < es.length := by rw [← h1.length_eq]; exact hi
  have hi5 : i < ts'.length := by rw [← h2.length_eq]; exact hi2
  have b1 := (forall₂_iff_get.mp h1).2 i hi hi3
  have b3 := (forall₂_iff_get.mp h2).2 i hi2 hi5
  simp only [get_eq_getElem] at b1 b3
  have hu : (us.elim (replicate qs.length none) (·.map some))[i]? = some (inputs.bind (·.at i)) := by
    cases inputs with
    | none =>
      rw [(a5 rfl).1]
      simp [hi]
    | some f =>
      obtain ⟨vs, Us, rfl, -, c3⟩ := a6 f rfl
      obtain ⟨u, hu⟩ := Option.isSome_iff_exists.1 (hfi f rfl)
      simp only [Option.elim, getElem?_map, (c3 i hi).1, Option.bind_some, hu, Option.map_some]
  have hz : (zip ps (zip es (zip (us.elim (replicate qs.length none) (·.map some)) ts')))[i]? =
      some (mu, es[i], inputs.bind (·.at i), ts'[i]) := by
    rw [getElem?_zip_eq_some, getElem?_zip_eq_some, getElem?_zip_eq_some]
    exact ⟨hmu, getElem?_eq_getElem hi3, hu, getElem?_eq_getElem hi5⟩
  obtain ⟨k1, k2⟩ := List.getElem?_eq_some_iff.1 hz
  have k3 : i < errs.length := by rw [← g2.length_eq]; exact k1
  have k4 := (forall₂_iff_get.mp g2).2 i k1 k3
  simp only [get_eq_getElem] at k4
  rw [k2] at k4
  obtain ⟨N, L, l1, l2, l3, l4, -⟩ := k4
  exact ⟨es[i], N, L, ts'[i], by rw [hR]; exact b1, l1, b3, l2, l3, l4⟩

/-- **C88.** The parametric reduced-order model left by a successful `fit_regselect_continuous` has passed every test
case at its parameter value and follows every training trajectory at the parameter value it belongs to, over its extended
time domain and under its input function, if the integration gives numbers. -/
theorem C88_continuous_passed [Field K] [LinearOrder K] [FloorRing K] (lib : ItpLib K) (I : SolverI K S)
    {setReg : S → Point K → S × Except Err Unit} {cfg : S → C} (G : Search K) (hO : Overwrites setReg cfg)
    (ho : ∀ st, (G.optimiser st).Honest []) (sim : Integrator K S) (hsim : sim.Numeric) (p2 : PNorm K) (c : Cands K)
    (times : OneOrMany (List K)) (R R' : PRom K T B (PModel K S))
    (hint : R.model.intrusive = false) (s : S) (hs : R.model.solver = some s) (hcom : Commute I setReg s)
    (ps : List (Par K)) (hord : ∀ s ∈ R.model.slots, s.infer = true → s.op.OrderedAt ps) (qs : List (Snap K))
    (zs : Option (List (Snap K))) (inputs : Option (OneOrMany (K → List K))) (fitT fitB only : Bool)
    (testTime margin : K) (tests : List (PContTest K))
    (h : R.selectContinuous (pModelI lib I) (pSelI lib I setReg) (pEvalAt lib) G sim p2 c times ps qs zs inputs fitT fitB
      only testTime margin tests = (R', .ok ())) :
    PContGood (pEvalAt lib) sim margin testTime tests times ps qs inputs R' := by
  obtain ⟨ts, us, U, R1, d, tests', trains, h0, h1, h2, -, h3, w, s', v, -, -, -, h4, -⟩ := C88_continuous_partial lib I G hO
    ho sim p2 c times R R' hint s hs hcom ps hord qs zs inputs fitT fitB only testTime margin tests h
  exact pContGood_of_scores _ sim hsim p2 margin testTime tests times ps qs inputs ts us U h0 R1 R' h2 d tests' trains h3 v
    h4

/-- **C88.** The same for interpolatory models. -/
theorem C88_interpolatory_continuous_passed [Field K] [LinearOrder K] [FloorRing K] (lib : ItpLib K) (plain : S)
    (l2 : Int → S) (I : SolverI K S) {setReg : S → Point K → S × Except Err Unit} {cfg : S → C} (G : Search K)
    (hO : Overwrites setReg cfg) (ho : ∀ st, (G.optimiser st).Honest []) (sim : Integrator K S) (hsim : sim.Numeric)
    (p2 : PNorm K) (c : Cands K) (times : OneOrMany (List K)) (R R' : PRom K T B (IModel K S))
    (hint : R.model.base.intrusive = false) (s : S) (hs : R.model.base.solver = some s) (hcom : Commute I setReg s)
    (ps : List (Par K)) (hps : ps ≠ []) (hord : ∀ s ∈ R.model.base.slots, s.op.OrderedAt ps) (qs : List (Snap K))
    (zs : Option (List (Snap K))) (inputs : Option (OneOrMany (K → List K))) (fitT fitB only : Bool)
    (testTime margin : K) (tests : List (PContTest K))
    (h : R.selectContinuous (iModelI lib plain l2 I) (iSelI lib plain l2 I setReg) (iEvalAt lib) G sim p2 c times ps qs zs
      inputs fitT fitB only testTime margin tests = (R', .ok ())) :
    PContGood (iEvalAt lib) sim margin testTime tests times ps qs inputs R' := by
  obtain ⟨-, ts, us, U, R1, d, tests', trains, h0, h1, h2, -, h3, w, s', v, -, -, -, h4, -⟩ :=
    C88_interpolatory_continuous_partial lib plain l2 I G hO ho sim p2 c times R R' hint s hs hcom ps hps hord qs zs inputs
      fitT fitB only testTime margin tests h
  exact pContGood_of_scores _ sim hsim p2 margin testTime tests times ps qs inputs ts us U h0 R1 R' h2 d tests' trains h3 v
    h4

/-! ### Refused arguments -/

/-- **C88, refused arguments.** `fit_regselect_discrete` leaves a parametric reduced-order model of any kind as it was and
raises `AttributeError` for a time-continuous model or a solver without regularizer, `ValueError` for a negative number
of test iterations, `DimensionalityError` for a wrong number of input trajectories, and `ValueError` for too short ones. -/
theorem C88_discrete_refused [Field K] [LinearOrder K] (P : ParI K X) (J : SelI K X) (ev : EvalAt K X S) (G : Search K)
    (sqrt : K → K) (c : Cands K) (R : PRom K T B X) (ps : List (Par K)) (qs : List (Snap K)) (us : Option (List (Snap K)))
    (fitT fitB only : Bool) (numTest : Int) (margin : K) (tests : List (PDiscTest K)) :
    let call := R.selectDiscrete P J ev G sqrt c ps qs us fitT fitB only numTest margin tests
    (R.rom.continuous = true ∨ J.hasSolver R.model = false → call = (R, .error .attribute)) ∧
    (R.rom.continuous = false → J.hasSolver R.model = true →
      (numTest < 0 → call = (R, .error .value)) ∧
      (0 ≤ numTest → (∀ V, us = some V → V.length ≠ qs.length → call = (R, .error .dimensionality)) ∧
        (∀ V, us = some V → V.length = qs.length → (∃ x ∈ zip qs V, x.2.ncolumns < x.1.ncolumns + numTest.toNat) →
          call = (R, .error .value)) ∧
        (us = none → P.hasInputs R.model = true → call = (R, .error .value)))) := by
  intro call
  refine ⟨?_, fun hc hs => ⟨fun hn => ?_, fun hn => ⟨?_, ?_, ?_⟩⟩⟩
  · rintro (h | h)
    · simp only [call, PRom.selectDiscrete, h, if_true]
    · simp only [call, PRom.selectDiscrete, h, if_true, ite_self]
  · simp only [call, PRom.selectDiscrete, hc, hs, Bool.false_eq_true, if_false, hn, if_true, Bool.true_eq_false]
  · rintro V rfl hne
    simp only [call, PRom.selectDiscrete, hc, hs, Bool.false_eq_true, if_false, not_lt.mpr hn, checkSelInputs, hne,
      ne_eq, not_false_eq_true, if_true, Bool.true_eq_false]
  · rintro V rfl hlen ⟨x, hx, hlt⟩
    have hany : (zip qs V).any (fun x => decide (x.2.ncolumns < x.1.ncolumns + numTest.toNat)) = true :=
      any_eq_true.mpr ⟨x, hx, by simpa using hlt⟩
    simp only [call, PRom.selectDiscrete, hc, hs, Bool.false_eq_true, if_false, not_lt.mpr hn, checkSelInputs, hlen,
      ne_eq, not_true_eq_false, hany, if_true, Bool.true_eq_false]
  · rintro rfl hi
    simp only [call, PRom.selectDiscrete, hc, hs, Bool.false_eq_true, if_false, not_lt.mpr hn, checkSelInputs,
      PRom.selectLists, PRom.checkFitArgs, Option.isNone_none, Bool.and_false, Bool.false_and, hi, Bool.and_self,
      if_true, Bool.true_eq_false]

/-- **C88, refused arguments.** `fit_regselect_continuous` leaves a parametric reduced-order model of any kind as it was
and raises `AttributeError` for a fully discrete model or a solver without regularizer, `DimensionalityError` if some time
domain does not have as many times as there are snapshots, and `ValueError` if `test_time_length` is negative. -/
theorem C88_continuous_refused [Field K] [LinearOrder K] [FloorRing K] (P : ParI K X) (J : SelI K X) (ev : EvalAt K X S)
    (G : Search K) (sim : Integrator K S) (p2 : PNorm K) (c : Cands K) (times : OneOrMany (List K))
    (R : PRom K T B X) (ps : List (Par K)) (qs : List (Snap K)) (zs : Option (List (Snap K)))
    (inputs : Option (OneOrMany (K → List K))) (fitT fitB only : Bool) (testTime margin : K)
    (tests : List (PContTest K)) :
    let call := R.selectContinuous P J ev G sim p2 c times ps qs zs inputs fitT fitB only testTime margin tests
    (R.rom.continuous = false ∨ J.hasSolver R.model = false → call = (R, .error .attribute)) ∧
    (R.rom.continuous = true → J.hasSolver R.model = true → ∀ ts, fixTimes qs.length times = .ok ts →
        ((∃ (i : Nat) (q : Snap K) (t : List K), qs[i]? = some q ∧ times.at i = some t ∧ t.length ≠ q.ncolumns) →
          call = (R, .error .dimensionality)) ∧
        ((∀ (i : Nat) (q : Snap K) (t : List K), qs[i]? = some q → times.at i = some t → t.length = q.ncolumns) →
          inputs = none → testTime < 0 → call = (R, .error .value))) := by
  intro call
  constructor
  · rintro (hc | hs)
    · simp only [call]
      rw [PRom.selectContinuous, if_pos (by simp [hc])]
    · simp only [call]
      rw [PRom.selectContinuous]
      cases hc : R.rom.continuous with
      | false => rfl
      | true => rw [if_neg (by simp), if_pos (by simp [hs])]
  · intro hc hs ts h3
    simp only [call]
    rw [PRom.selectContinuous, if_neg (by simp [hc]), if_neg (by simp [hs])]
    constructor
    · rintro ⟨i, q, t, hq, ht, hne⟩
      have hi : i < qs.length := (List.getElem?_eq_some_iff.1 hq).1
      have hck : checkTimes ts qs = false := by
        rw [checkTimes, all_eq_false]
        refine ⟨(t, q), mem_of_getElem? (i := i) ?_, by simpa using hne⟩
        rw [getElem?_zip_eq_some]
        exact ⟨by rw [fixTimes_at h3 i hi]; exact ht, hq⟩
      have : fixPContArgs times qs inputs testTime = .error .dimensionality := by
        simp only [fixPContArgs, bind, Except.bind, h3, hck]
        rfl
      rw [this]
    · rintro hall rfl hneg
      have hck : checkTimes ts qs = true := by
        rw [checkTimes, all_eq_true]
        rintro ⟨t, q⟩ hx
        obtain ⟨i, hi⟩ := mem_iff_getElem?.1 hx
        rw [getElem?_zip_eq_some] at hi
        have hl : i < qs.length := (List.getElem?_eq_some_iff.1 hi.2).1
        have := hall i q t hi.2 (by rw [← fixTimes_at h3 i hl]; exact hi.1)
        simpa using this
      have : fixPContArgs times qs none testTime = .error .value := by
        simp only [fixPContArgs, bind, Except.bind, h3, hck, fixFuns, funInputs]
        simp only [Bool.not_true, Bool.false_eq_true, if_false, pure, Except.pure]
        rw [if_pos hneg]
        rfl
      rw [this]

/-! ### The hypotheses can be satisfied -/

/-- Selection with the given bound for the test case from 1 over three iterations at the first parameter. -/
def selBound (b : ℚ) : PRom ℚ Unit Unit (PModel ℚ (Tik (Mat ℚ) ℚ)) × Except Err Unit :=
  selRom.selectDiscrete selP selJ (pEvalAt toyLib) RegEx.search RegEx.root (.nums [0]) [.scalar 1, .scalar 2] selStates
    none true true true 1 100 [⟨.scalar 1, ⟨[1], 3, .none, some b⟩⟩]

/-- At the first parameter the model goes from 1 to 9. -/
example : (selBound 8).2 = .ok () ∧ (selBound 7).2 = .error .runtime := by constructor <;> decide +kernel

theorem selModel_ordered (ps : List (Par ℚ)) (h : ps = [.scalar 1, .scalar 2]) :
    ∀ s ∈ selModel.slots, s.op.OrderedAt ps := by
  subst h
  intro s hs
  simp only [selModel, mem_singleton] at hs
  subst hs
  intro _ xs hx
  cases hx
  decide +kernel

/-- The hypotheses of `C88_discrete_passed` can be satisfied. -/
example : PDiscGood (pEvalAt toyLib) 100 1 [⟨.scalar 1, ⟨[1], 3, .none, some 8⟩⟩] [.scalar 1, .scalar 2] selStates none
    (selBound 8).1 :=
  C88_discrete_passed toyLib RegEx.tik (setReg := tikSetReg (RegEx.factory 2)) RegEx.search (tikSetReg_overwrites _)
    (fun _ => trivial) RegEx.root (.nums [0]) selRom (selBound 8).1 rfl selBase rfl (tik_commute _ _ _ _ rfl)
    [.scalar 1, .scalar 2] (fun s hs _ => selModel_ordered _ rfl s hs) selStates none true true true 1 100 _
    (Prod.ext (x := selBound 8) rfl (by decide +kernel)) (by
      intro q hq e he
      have h1 : (selBound 8).1.rom = selRom.rom := by rfl
      rw [h1] at he
      have h2 : selRom.rom.encode1 q = .ok q := rfl
      cases h2.symm.trans he
      simp only [selStates, mem_cons, not_mem_nil, or_false] at hq
      rcases hq with rfl | rfl <;> simp [Snap.WF])

/-- A time-continuous reduced-order model without lifter, transformer and basis. -/
def selCont : PRom ℚ Unit Unit (PModel ℚ (Tik (Mat ℚ) ℚ)) := ⟨⟨none, none, none, true⟩, none, selModel⟩

/-- An integrator that stays at the initial state, up to `stop`. -/
def stillSim (stop : ℚ) : Integrator ℚ (Tik (Mat ℚ) ℚ) := fun _ q0 t _ =>
  .ok (finiteTraj (q0 :: (t.tail.filter fun s => decide (s ≤ stop)).map fun _ => q0))

theorem stillSim_numeric (stop : ℚ) : (stillSim stop).Numeric := by
  intro N q0 t u Q h
  refine ⟨_, (Except.ok.inj h).symm, by simp, ?_⟩
  intro q hq
  simp only [mem_cons, mem_map] at hq
  rcases hq with rfl | ⟨-, -, rfl⟩ <;> rfl

/-- Selection for two constant trajectories, each with its own time domain. -/
def stillRun (stop : ℚ) : PRom ℚ Unit Unit (PModel ℚ (Tik (Mat ℚ) ℚ)) × Except Err Unit :=
  selCont.selectContinuous selP selJ (pEvalAt toyLib) RegEx.search (stillSim stop) oneNorm (.nums [0])
    (.many [[0, 1], [2, 3]]) [.scalar 1, .scalar 2] [.mat 2 [[1, 3]], .mat 2 [[4, 5]]]
    (some [.mat 2 [[0, 0]], .mat 2 [[0, 0]]]) none true true true 1 10 [⟨.scalar 1, ⟨[1], [0, 1], none, some 0⟩⟩]

/-- The selection fails if the integration breaks off before the end 4 of the second extended time domain. -/
example : (stillRun 4).2 = .ok () ∧ (stillRun 3).2 = .error .runtime := by constructor <;> decide +kernel

/-- The hypotheses of `C88_continuous_passed` can be satisfied. -/
example : PContGood (pEvalAt toyLib) (stillSim 4) 10 1 [⟨.scalar 1, ⟨[1], [0, 1], none, some 0⟩⟩] (.many [[0, 1], [2, 3]])
    [.scalar 1, .scalar 2] [.mat 2 [[1, 3]], .mat 2 [[4, 5]]] none (stillRun 4).1 :=
  C88_continuous_passed toyLib RegEx.tik (setReg := tikSetReg (RegEx.factory 2)) RegEx.search (tikSetReg_overwrites _)
    (fun _ => trivial) (stillSim 4) (stillSim_numeric 4) oneNorm (.nums [0]) _ selCont (stillRun 4).1 rfl selBase rfl
    (tik_commute _ _ _ _ rfl) [.scalar 1, .scalar 2] (fun s hs _ => selModel_ordered _ rfl s hs) _ _ none true true true 1
    10 _ (Prod.ext (x := stillRun 4) rfl (by decide +kernel))

end Opinf
