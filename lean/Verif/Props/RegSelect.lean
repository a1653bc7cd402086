import Verif.Lemmas.RegSelect
import Mathlib.Algebra.Order.Ring.Rat

/-!
# C49, C50: the outcome of `fit_regselect_*`

C49: after a successful selection the model is the one fitted with the selected regularization, it is stable on all
training trajectories and test cases, and its training error is at most that of every candidate; without a stable
candidate a `RuntimeError` is raised. C50: a second selection on the same object with data of another dimension.
-/

namespace Opinf

open List

variable {K S C : Type}

/-! ### Specification -/

/-- The model predicts the test case and the prediction is stable. -/
def RegCase.Stable {X : Type} (c : RegCase K X) (M : X) : Prop := ∃ Q, c.predict M = .ok Q ∧ c.unstable Q = false

/-- The model predicts the training trajectory, the prediction is stable and has relative error `e`. -/
def TrainCase.Scores {X : Type} (M : X) (c : TrainCase K X) (e : Val K) : Prop :=
  ∃ Q, c.predict M = .ok Q ∧ c.unstable Q = .ok false ∧ c.error Q = .ok e

/-- The mean of floating point values, added up from the left. -/
def Val.mean [Field K] (es : List (Val K)) : Val K := (es.foldl Val.add (.num 0)).divNat es.length

/-- The model is stable everywhere and `v` is its mean relative error over the training trajectories. -/
def Scores {X : Type} [Field K] (tests : List (RegCase K X)) (trains : List (TrainCase K X)) (M : X) (v : Val K) : Prop :=
  (∀ c ∈ tests, c.Stable M) ∧ ∃ es, Forall₂ (TrainCase.Scores M) trains es ∧ v = Val.mean es

/-! ### Evaluation of a model -/

theorem testLoop_true {X : Type} (M : X) (tests : List (RegCase K X)) :
    testLoop M tests = .ok true ↔ ∀ c ∈ tests, c.Stable M := by
  induction tests with
  | nil => simp [testLoop]
  | cons c cs ih =>
    rw [forall_mem_cons, ← ih]
    simp only [testLoop, RegCase.Stable]
    cases c.predict M with
    | error e => simp
    | ok Q => cases hu : c.unstable Q <;> simp [hu]

theorem trainLoop_some {X : Type} [Field K] (M : X) : ∀ (trains : List (TrainCase K X)) (a v : Val K),
    trainLoop M a trains = .ok (some v) ↔
      ∃ es, Forall₂ (TrainCase.Scores M) trains es ∧ v = es.foldl Val.add a := by
  intro trains
  induction trains with
  | nil => intro a v; simp [trainLoop, eq_comm]
  | cons c cs ih =>
    intro a v
    have key : trainLoop M a (c :: cs) = .ok (some v) ↔
        ∃ e, c.Scores M e ∧ trainLoop M (a.add e) cs = .ok (some v) := by
      simp only [trainLoop, TrainCase.Scores]
      cases c.predict M with
      | error e => simp
      | ok Q =>
        cases hu : c.unstable Q with
        | error e => simp [hu]
        | ok b =>
          cases b with
          | true => simp [hu]
          | false => cases he : c.error Q <;> simp [hu, he]
    rw [key]
    simp only [ih]
    constructor
    · rintro ⟨e, h1, es, h2, rfl⟩
      exact ⟨e :: es, .cons h1 h2, rfl⟩
    · rintro ⟨es, h, rfl⟩
      cases h with
      | cons h1 h2 => exact ⟨_, h1, _, h2, rfl⟩

theorem Val.genuine_divNat [Field K] (n : Nat) (v : Val K) : (v.divNat n).Genuine ↔ v.Genuine := by
  cases v <;> simp [Val.divNat, Val.Genuine]

/-- The value handed to the grid search is genuine exactly if the model is stable everywhere and its mean error is
genuine. -/
theorem evalModel_scores {X : Type} [Field K] (tests : List (RegCase K X)) (trains : List (TrainCase K X)) (M : X)
    (v : Val K) (hv : v.Genuine) : evalModel tests trains M = .ok v ↔ Scores tests trains M v := by
  have hinf : ∀ w : Val K, w.Genuine → w ≠ .inf := by rintro w hw rfl; exact hw
  simp only [evalModel, Scores, ← testLoop_true]
  cases ht : testLoop M tests with
  | error e => simp
  | ok b =>
    cases b with
    | false => simp [Ne.symm (hinf v hv)]
    | true =>
      cases hl : trainLoop M (.num 0) trains with
      | error e =>
        simp only [reduceCtorEq, false_iff, true_and, not_exists, not_and]
        intro es hes
        have := (trainLoop_some M trains (.num 0) _).2 ⟨es, hes, rfl⟩
        rw [hl] at this
        cases this
      | ok o =>
        cases o with
        | none =>
          simp only [Except.ok.injEq, Ne.symm (hinf v hv), true_and, false_iff, not_exists, not_and]
          intro es hes
          have := (trainLoop_some M trains (.num 0) _).2 ⟨es, hes, rfl⟩
          rw [hl] at this
          cases this
        | some a =>
          simp only [Except.ok.injEq, true_and]
          constructor
          · rintro rfl
            obtain ⟨es, hes, rfl⟩ := (trainLoop_some M trains (.num 0) _).1 hl
            exact ⟨es, hes, by rw [Val.mean, hes.length_eq]⟩
          · rintro ⟨es, hes, rfl⟩
            have := (trainLoop_some M trains (.num 0) _).2 ⟨es, hes, rfl⟩
            rw [hl] at this
            simp only [Except.ok.injEq, Option.some.injEq] at this
            rw [Val.mean, hes.length_eq, this]

theorem trainingError_scores [Field K] (I : SolverI K S) (setReg : S → Point K → S × Except Err Unit)
    (tests : List (RegCase K (Model K S))) (trains : List (TrainCase K (Model K S))) (p : Point K) (M : Model K S) (v : Val K)
    (hv : v.Genuine) : (trainingError I setReg tests trains p M).2 = .ok v ↔
      ∃ N, updateModel I setReg M p = (N, .ok ()) ∧ Scores tests trains N v := by
  simp only [trainingError]
  rcases hu : updateModel I setReg M p with ⟨N, x⟩
  cases x with
  | error e =>
    simp only [Except.ok.injEq, Prod.mk.injEq, reduceCtorEq, and_false, false_and, exists_false, iff_false]
    rintro rfl
    exact hv
  | ok _ =>
    simp only [evalModel_scores tests trains N v hv]
    constructor
    · intro h; exact ⟨N, rfl, h⟩
    · rintro ⟨_, h1, h2⟩
      simp only [Prod.mk.injEq, and_true] at h1
      rw [h1]; exact h2

/-! ### C49 -/

section select

variable [Field K] [LinearOrder K] (I : SolverI K S) {setReg : S → Point K → S × Except Err Unit} {cfg : S → C}
  (G : Search K)

/-- **C49.** A successful selection has chosen some regularization `w`. The final model is what setting `w` and
re-solving gives directly after the data were handed to the solver (nothing of the other trials is left); it is stable
on every test case and training trajectory; and its mean training error is at most that of every candidate whose model
is stable. -/
theorem C49_selected (hO : Overwrites setReg cfg) (ho : ∀ st, (G.optimiser st).Honest [])
    (cases : Except Err (List (RegCase K (Model K S)) × List (TrainCase K (Model K S)))) (c : Cands K) (only : Bool)
    (M M' : Model K S) (states lhs : Arg K) (inputs : Option (Arg K))
    (h : regselect I setReg G cases c only M states lhs inputs = (M', .ok ())) :
    ∃ M1 tests trains w v, M.fitSolver I states lhs inputs = (M1, .ok ()) ∧ cases = .ok (tests, trains) ∧
      updateModel I setReg M1 w = (M', .ok ()) ∧ Scores tests trains M' v ∧ v.Genuine ∧
      (only = true → w ∈ c.points) ∧
      ∀ p ∈ c.points, ∀ N u, updateModel I setReg M1 p = (N, .ok ()) → Scores tests trains N u → u.Genuine →
        v.AtMost u := by
  simp only [regselect] at h
  rcases hf : M.fitSolver I states lhs inputs with ⟨M1, x⟩
  rw [hf] at h
  cases x with
  | error e => simp at h
  | ok _ =>
    cases hcs : cases with
    | error e => rw [hcs] at h; simp at h
    | ok tt =>
      obtain ⟨tests, trains⟩ := tt
      rw [hcs] at h
      simp only at h
      rcases hg : gridsearch G.pow10 G.big G.optimiser (trainingError I setReg tests trains) c only M1 with ⟨M2, y⟩
      rw [hg] at h
      cases y with
      | error e => simp at h
      | ok w =>
        simp only at h
        have hT := trainingError_tame I hO tests trains M1
        obtain ⟨hal, v, hv, hgen, hall⟩ := C48_never_worse hT ho c only M1 M2 w (Model.Alike.refl _ _) hg
        obtain ⟨N, hN, hs⟩ := (trainingError_scores I setReg tests trains w M1 v hgen).1 hv
        obtain ⟨e1, e2, -⟩ := updateModel_alike I hO hal w
        rw [h, hN] at e1 e2
        have := e2 rfl
        simp only at this
        subst this
        refine ⟨M1, tests, trains, w, v, rfl, rfl, hN, hs, hgen, ?_, ?_⟩
        · rintro rfl
          exact (C48_grid_only hT c M1 M2 w (Model.Alike.refl _ _) hg).1
        · intro p hp N u hN' hs' hu
          obtain ⟨u', h1, h2⟩ := hall p hp
          rw [(trainingError_scores I setReg tests trains p M1 u hu).2 ⟨N, hN', hs'⟩] at h1
          simp only [Except.ok.injEq] at h1
          rw [h1]
          exact h2

/-- **C49.** If no candidate gives a model that is stable everywhere (and no prediction raises), the selection raises
`RuntimeError`; with `gridsearch_only` it succeeds as soon as one candidate does. -/
theorem C49_no_stable_candidate (hO : Overwrites setReg cfg) (tests : List (RegCase K (Model K S)))
    (trains : List (TrainCase K (Model K S))) (c : Cands K) (g : Grid K) (hc : c.process = .ok g) (M M1 : Model K S)
    (states lhs : Arg K) (inputs : Option (Arg K)) (hf : M.fitSolver I states lhs inputs = (M1, .ok ()))
    (hpred : ∀ p ∈ c.points, ∀ N, updateModel I setReg M1 p = (N, .ok ()) → ∃ u, evalModel tests trains N = .ok u) :
    (∀ only, (∀ p ∈ c.points, ∀ N u, updateModel I setReg M1 p = (N, .ok ()) → Scores tests trains N u →
        ¬ u.Genuine) →
      (regselect I setReg G (.ok (tests, trains)) c only M states lhs inputs).2 = .error .runtime) ∧
    ((∃ p ∈ c.points, ∃ N u, updateModel I setReg M1 p = (N, .ok ()) ∧ Scores tests trains N u ∧ u.Genuine) →
      (regselect I setReg G (.ok (tests, trains)) c true M states lhs inputs).2 = .ok ()) := by
  have hT := trainingError_tame I hO tests trains M1
  have hok : ∀ p ∈ c.points, ∃ u, (trainingError I setReg tests trains p M1).2 = .ok u := by
    intro p hp
    simp only [trainingError]
    rcases hu : updateModel I setReg M1 p with ⟨N, x⟩
    cases x with
    | error e => exact ⟨_, rfl⟩
    | ok _ => exact hpred p hp N hu
  obtain ⟨a1, a2⟩ := C48_all_unstable (pow10 := G.pow10) (big := G.big) (optimiser := G.optimiser) hT c g hc M1
    (Model.Alike.refl _ _) hok
  constructor
  · intro only hun
    obtain ⟨s', hs'⟩ := a1 only (by
      intro p hp u hu hgen
      obtain ⟨N, hN, hs⟩ := (trainingError_scores I setReg tests trains p M1 u hgen).1 hu
      exact hun p hp N u hN hs hgen)
    simp only [regselect, hf, hs']
  · rintro ⟨p, hp, N, u, hN, hs, hgen⟩
    obtain ⟨M2, w, hg⟩ := a2 ⟨p, hp, u, (trainingError_scores I setReg tests trains p M1 u hgen).2 ⟨N, hN, hs⟩, hgen⟩
    have hho : ∀ st, ((fun _ => Optim.fail .value : Start K → Optim K) st).Honest [] := fun _ => trivial
    have hg' : gridsearch G.pow10 G.big (fun _ => Optim.fail .value) (trainingError I setReg tests trains) c true M1
        = (M2, .ok w) := by
      have : gridsearch G.pow10 G.big (fun _ => Optim.fail .value) (trainingError I setReg tests trains) c true M1
          = gridsearch G.pow10 G.big G.optimiser (trainingError I setReg tests trains) c true M1 := rfl
      rw [this, hg]
    obtain ⟨hal, v, hv, hgv, -⟩ := C48_never_worse hT hho c true M1 M2 w (Model.Alike.refl _ _) hg'
    obtain ⟨N', hN', -⟩ := (trainingError_scores I setReg tests trains w M1 v hgv).1 hv
    obtain ⟨e1, -, -⟩ := updateModel_alike I hO hal w
    simp only [regselect, hf, hg, e1, hN']

/-- **C49.** Exceptions of the predictions are not taken for instability: if the model of the first candidate (in the
order of the search) raises during a prediction, so does the selection. -/
theorem C49_prediction_raises (hO : Overwrites setReg cfg) (tests : List (RegCase K (Model K S)))
    (trains : List (TrainCase K (Model K S))) (c : Cands K) (g : Grid K) (hc : c.process = .ok g) (only : Bool)
    (M M1 N : Model K S) (states lhs : Arg K) (inputs : Option (Arg K))
    (hf : M.fitSolver I states lhs inputs = (M1, .ok ())) (p : Point K) (ps : List (Point K)) (hg : g.points = p :: ps)
    (hu : updateModel I setReg M1 p = (N, .ok ())) (e : Err) (he : evalModel tests trains N = .error e) :
    (regselect I setReg G (.ok (tests, trains)) c only M states lhs inputs).2 = .error e := by
  have hT := trainingError_tame I hO tests trains M1
  obtain ⟨s', -, hs'⟩ := C48_exception (pow10 := G.pow10) (big := G.big) (optimiser := G.optimiser) hT c g hc only M1
    (Model.Alike.refl _ _) e [] ps p hg (by simp) (by simp only [trainingError, hu, he])
  simp only [regselect, hf, hs']

end select

/-- If no relative error is `-inf` (they are quotients of norms), a genuine mean is the arithmetic mean of numbers. -/
theorem C49_mean [Field K] (es : List (Val K)) (hn : ∀ e ∈ es, e ≠ .ninf) (hg : (Val.mean es).Genuine) :
    ∃ xs : List K, es = xs.map .num ∧ Val.mean es = .num (xs.sum / xs.length) := by
  have bad : ∀ (es : List (Val K)) (a : Val K), a = .nan ∨ a = .inf → (∀ e ∈ es, e ≠ .ninf) →
      es.foldl Val.add a = .nan ∨ es.foldl Val.add a = .inf := by
    intro es
    induction es with
    | nil => intro a ha _; exact ha
    | cons e es ih =>
      intro a ha hn
      refine ih _ ?_ (fun x hx => hn x (mem_cons_of_mem _ hx))
      have := hn e mem_cons_self
      rcases ha with rfl | rfl <;> cases e <;> simp_all [Val.add]
  have key : ∀ (es : List (Val K)) (a : K), (∀ e ∈ es, e ≠ .ninf) → (es.foldl Val.add (.num a)).Genuine →
      ∃ xs : List K, es = xs.map .num ∧ es.foldl Val.add (.num a) = .num (a + xs.sum) := by
    intro es
    induction es with
    | nil => intro a _ _; exact ⟨[], rfl, by simp⟩
    | cons e es ih =>
      intro a hn hg
      have hne : ∀ x ∈ es, x ≠ .ninf := fun x hx => hn x (mem_cons_of_mem _ hx)
      cases e with
      | num x =>
        obtain ⟨xs, h1, h2⟩ := ih (a + x) hne hg
        refine ⟨x :: xs, by simp [h1], ?_⟩
        rw [foldl_cons]
        simp only [Val.add, h2, sum_cons, add_assoc]
      | inf =>
        rcases bad es .inf (Or.inr rfl) hne with h | h <;>
          simp only [foldl_cons, Val.add, h, Val.Genuine] at hg
      | nan =>
        rcases bad es .nan (Or.inl rfl) hne with h | h <;>
          simp only [foldl_cons, Val.add, h, Val.Genuine] at hg
      | ninf => exact absurd rfl (hn .ninf mem_cons_self)
  obtain ⟨xs, h1, h2⟩ := key es 0 hn ((Val.genuine_divNat _ _).1 hg)
  refine ⟨xs, h1, ?_⟩
  rw [Val.mean, h2, h1]
  simp [Val.divNat]

/-! ### The final model is a fit with the selected regularization -/

/-- Setting the regularization after the data gives the solver that setting it before would have given. -/
def Prior (I : SolverI K S) (setReg : S → Point K → S × Except Err Unit) (s : S) : Prop :=
  ∀ D Z p t t', I.fit s D Z = (t, .ok ()) → setReg t p = (t', .ok ()) →
    ∃ s', setReg s p = (s', .ok ()) ∧ I.fit s' D Z = (t', .ok ())

theorem process_keeps {S : Type} [CommRing K] {M X : Model K S} {states lhs : Arg K} {inputs : Option (Arg K)}
    {x} (h : M.processFitArgs states lhs inputs = (X, x)) : X.solver = M.solver ∧ X.intrusive = M.intrusive ∧
      X.hasInputs = M.hasInputs ∧ X.slots = clearSlots M.slots :=
  ⟨(process_spec h).1.2.2.2, (process_spec h).1.2.2.1, (process_spec h).1.2.1, (process_spec h).1.1⟩

theorem fitSolver_ok {S : Type} [CommRing K] {I : SolverI K S} {M M1 : Model K S} {states lhs : Arg K}
    {inputs : Option (Arg K)} (h : M.fitSolver I states lhs inputs = (M1, .ok ())) :
    ∃ X Q Z U s t, M.processFitArgs states lhs inputs = (X, .ok (Q, Z, U)) ∧ M.solver = some s ∧
      I.fit s (X.dataMatrix Q U) Z = (t, .ok ()) ∧ M1 = X.ws (some t) := by
  simp only [Model.fitSolver] at h
  rcases hp : M.processFitArgs states lhs inputs with ⟨X, x⟩
  rw [hp] at h
  cases x with
  | error e => simp at h
  | ok q =>
    obtain ⟨Q, Z, U⟩ := q
    simp only at h
    have hk := (process_keeps hp).1
    cases hs : X.solver with
    | none => rw [hs] at h; simp at h
    | some s =>
      rw [hs] at h
      simp only [Prod.mk.injEq] at h
      refine ⟨X, Q, Z, U, s, (I.fit s (X.dataMatrix Q U) Z).1, rfl, hk ▸ hs, ?_, ?_⟩
      · rw [← h.2]
      · rw [← h.1]; rfl

/-- **C49.** The final model is exactly what `fit` gives on the same object when the selected regularization is set
beforehand. -/
theorem C49_as_fit [Field K] [LinearOrder K] (I : SolverI K S) {setReg : S → Point K → S × Except Err Unit}
    {cfg : S → C} (G : Search K) (hO : Overwrites setReg cfg) (ho : ∀ st, (G.optimiser st).Honest [])
    (cases : Except Err (List (RegCase K (Model K S)) × List (TrainCase K (Model K S)))) (c : Cands K) (only : Bool)
    (M M' : Model K S) (states lhs : Arg K) (inputs : Option (Arg K)) (hint : M.intrusive = false) (s : S)
    (hs : M.solver = some s) (hprior : Prior I setReg s)
    (h : regselect I setReg G cases c only M states lhs inputs = (M', .ok ())) :
    ∃ w s', setReg s w = (s', .ok ()) ∧
      Model.fit I { M with solver := some s' } states lhs inputs = (M', .ok ()) := by
  obtain ⟨M1, tests, trains, w, v, hf, -, hu, -, -, -, -⟩ :=
    C49_selected I G hO ho cases c only M M' states lhs inputs h
  obtain ⟨X, Q, Z, U, s0, t, hp, hs0, hfit, rfl⟩ := fitSolver_ok hf
  rw [hs] at hs0
  cases hs0
  simp only [updateModel, Model.ws] at hu
  rcases hr : setReg t w with ⟨t', x⟩
  rw [hr] at hu
  cases x with
  | error e => simp at hu
  | ok _ =>
    obtain ⟨s', h1, h2⟩ := hprior _ _ _ _ _ hfit hr
    refine ⟨w, s', h1, ?_⟩
    have hws := process_ws M (some s') states lhs inputs
    simp only [Model.ws] at hws
    have hd : ∀ Q U, ({ X with solver := some s' } : Model K S).dataMatrix Q U = X.dataMatrix Q U := fun _ _ => rfl
    have hni : ¬ ({ M with solver := some s' } : Model K S).intrusive = true := by simp [hint]
    rw [Model.fit, if_neg hni, Model.fitSolver, hws, hp]
    simp only [hd, h2]
    exact hu

theorem l2_prior [Field K] [LinearOrder K] (svd : Mat K → Except Err (Svd K))
    (factory : Point K → Except Err (Option K)) (s : L2 K K) : Prior (l2Solver svd) (l2SetReg factory) s := by
  intro D Z p t t' h1 h2
  simp only [l2Solver] at h1 ⊢
  split at h1
  · simp at h1
  · rename_i hZ
    simp only [hZ, if_false, Bool.false_eq_true]
    simp only [L2.fit] at h1 ⊢
    cases ht : templateFit (.mat D) (.mat (lhsMat Z)) with
    | error e => rw [ht] at h1; simp at h1
    | ok DZ =>
      obtain ⟨D', Z'⟩ := DZ
      rw [ht] at h1
      simp only at h1 ⊢
      cases hv : svd D' with
      | error e => rw [hv] at h1; simp at h1
      | ok u =>
        rw [hv] at h1
        simp only [Prod.mk.injEq, and_true] at h1 ⊢
        subst h1
        simp only [l2SetReg] at h2 ⊢
        cases hfac : factory p with
        | error e => rw [hfac] at h2; simp at h2
        | ok reg =>
          rw [hfac] at h2
          simp only [L2.setReg] at h2 ⊢
          cases reg with
          | none =>
            simp only [Prod.mk.injEq, and_true] at h2 ⊢
            exact ⟨_, rfl, h2⟩
          | some x =>
            simp only at h2 ⊢
            split at h2
            · simp at h2
            · rename_i hx
              simp only [Prod.mk.injEq, and_true] at h2
              refine ⟨{ s with reg := some x }, by rw [if_neg hx], h2⟩

theorem tik_prior [Field K] [LinearOrder K] (lstsq posSolve : Mat K → Mat K → Except Err (Mat K))
    (factory : Point K → Except Err (Option (RegArg K))) (s : Tik (Mat K) K) (hs : s.data = none) :
    Prior (tikSolver lstsq posSolve) (tikSetReg factory) s := by
  intro D Z p t t' h1 h2
  simp only [tikSolver] at h1 ⊢
  split at h1
  · simp at h1
  · rename_i hZ
    simp only [hZ, if_false, Bool.false_eq_true]
    simp only [Tik.fit1, Tik.fit] at h1 ⊢
    cases ht : templateFit (.mat D) (.mat (lhsMat Z)) with
    | error e => rw [ht] at h1; simp at h1
    | ok DZ =>
      obtain ⟨D', Z'⟩ := DZ
      rw [ht] at h1
      simp only at h1 ⊢
      have ht' : t = { s with data := some (D', Z'), pre := some (tikPre D' Z') } := by
        split at h1
        · simp at h1
        · simp only [Prod.mk.injEq, and_true] at h1
          exact h1.symm
      subst ht'
      simp only [tikSetReg] at h2 ⊢
      cases hfac : factory p with
      | error e => rw [hfac] at h2; simp at h2
      | ok reg =>
        rw [hfac] at h2
        simp only [Tik.setReg] at h2 ⊢
        cases reg with
        | none =>
          simp only [Prod.mk.injEq, and_true] at h2 ⊢
          exact ⟨_, rfl, by simp [← h2]⟩
        | some x =>
          simp only at h2 ⊢
          cases hx : x.toMat with
          | error e => rw [hx] at h2; simp at h2
          | ok X =>
            rw [hx] at h2
            simp only [Prod.mk.injEq] at h2
            simp only [hs]
            refine ⟨_, rfl, ?_⟩
            simp only [h2.2]
            rw [← h2.1]

/-! ### C50: a second selection -/

/-- Handing data to the solver has the same outcome from both states, and afterwards the solvers have learned the
same. -/
def RefitsAt (I : SolverI K S) (cfg : S → C) (s t : S) : Prop :=
  ∀ D Z, (I.fit s D Z).2 = (I.fit t D Z).2 ∧ ((I.fit s D Z).2 = .ok () → cfg (I.fit s D Z).1 = cfg (I.fit t D Z).1)

/-- **C50** (the part that holds). Two model objects with the same operators, whatever was learned before, and with
solvers to which the data can be handed alike: the selection has the same outcome and the same resulting model. -/
theorem C50_same_outcome [Field K] [LinearOrder K] (I : SolverI K S) {setReg : S → Point K → S × Except Err Unit}
    {cfg : S → C} (G : Search K) (hO : Overwrites setReg cfg)
    (cases : Except Err (List (RegCase K (Model K S)) × List (TrainCase K (Model K S)))) (c : Cands K) (only : Bool)
    (M N : Model K S) (hMN : M.Sim N) (s t : S) (hs : M.solver = some s) (ht : N.solver = some t)
    (hR : RefitsAt I cfg s t) (states lhs : Arg K) (inputs : Option (Arg K)) :
    (regselect I setReg G cases c only M states lhs inputs).2
      = (regselect I setReg G cases c only N states lhs inputs).2 ∧
    ((regselect I setReg G cases c only M states lhs inputs).2 = .ok () →
      (regselect I setReg G cases c only M states lhs inputs).1
        = (regselect I setReg G cases c only N states lhs inputs).1) := by
  obtain ⟨p1, p2, p3⟩ := process_sim hMN states lhs inputs
  rcases hM : M.processFitArgs states lhs inputs with ⟨X, x⟩
  rcases hN : N.processFitArgs states lhs inputs with ⟨Y, y⟩
  have kM := (process_keeps hM).1
  have kN := (process_keeps hN).1
  rw [hM, hN] at p1 p2 p3
  simp only at p1 p2 p3
  subst p1
  cases x with
  | error e =>
    simp only [regselect, Model.fitSolver, hM, hN, true_and]
    intro h
    cases h
  | ok q =>
    obtain ⟨Q, Z, U⟩ := q
    have hX := p3 _ rfl
    rw [hs] at kM hX
    rw [ht] at kN
    have hd : X.dataMatrix Q U = Y.dataMatrix Q U := by rw [hX]; rfl
    obtain ⟨r1, r2⟩ := hR (Y.dataMatrix Q U) Z
    rcases hfs : I.fit s (Y.dataMatrix Q U) Z with ⟨s', a⟩
    rcases hft : I.fit t (Y.dataMatrix Q U) Z with ⟨t', b⟩
    rw [hfs, hft] at r1 r2
    simp only at r1 r2
    subst r1
    have fM : M.fitSolver I states lhs inputs = (X.ws (some s'), a) := by
      simp only [Model.fitSolver, hM, kM, hd, hfs]
      rfl
    have fN : N.fitSolver I states lhs inputs = (Y.ws (some t'), a) := by
      simp only [Model.fitSolver, hN, kN, hft]
      rfl
    cases a with
    | error e =>
      simp only [regselect, fM, fN, true_and]
      intro h
      cases h
    | ok _ =>
      cases cases with
      | error e =>
        simp only [regselect, fM, fN, true_and]
        intro h
        cases h
      | ok tt =>
        obtain ⟨tests, trains⟩ := tt
        have hal : (X.ws (some s')).Alike cfg (Y.ws (some t')) := by
          rw [hX]
          exact ⟨rfl, fun _ => rfl, rfl, rfl, rfl, rfl, by simp [Model.ws, r2 rfl]⟩
        have hT := trainingError_tame I hO tests trains (Y.ws (some t'))
        obtain ⟨g1, g2⟩ := gridsearch_same hT G.pow10 G.big G.optimiser c only _ _ hal (Model.Alike.refl _ _)
        obtain ⟨-, g3⟩ := gridsearch_same hT G.pow10 G.big G.optimiser c only _ _ (Model.Alike.refl _ _) hal
        simp only [regselect, fM, fN]
        rcases h1 : gridsearch G.pow10 G.big G.optimiser (trainingError I setReg tests trains) c only
          (X.ws (some s')) with ⟨A, u⟩
        rcases h2 : gridsearch G.pow10 G.big G.optimiser (trainingError I setReg tests trains) c only
          (Y.ws (some t')) with ⟨B, v⟩
        rw [h1, h2] at g1
        rw [h1] at g2
        rw [h2] at g3
        simp only at g1 g2 g3
        subst g1
        cases u with
        | error e =>
          simp only [true_and]
          intro h
          cases h
        | ok w =>
          obtain ⟨e1, e2, -⟩ := updateModel_alike I hO (g2.trans g3.symm) w
          exact ⟨e1, e2⟩

/-- A selection leaves the operators' classes and the known entries as they were. -/
theorem regselect_sim [Field K] [LinearOrder K] (I : SolverI K S) {setReg : S → Point K → S × Except Err Unit}
    {cfg : S → C} (G : Search K) (hO : Overwrites setReg cfg)
    (cases : Except Err (List (RegCase K (Model K S)) × List (TrainCase K (Model K S)))) (c : Cands K) (only : Bool)
    (M : Model K S) (hs : M.solver.isSome) (states lhs : Arg K) (inputs : Option (Arg K)) :
    (regselect I setReg G cases c only M states lhs inputs).1.Sim M ∧
    (regselect I setReg G cases c only M states lhs inputs).1.solver.isSome := by
  rcases hM : M.processFitArgs states lhs inputs with ⟨X, x⟩
  obtain ⟨k1, k2, k3, k4⟩ := process_keeps hM
  have hX : X.Sim M := ⟨by rw [k4, clearSlots_idem], k3, k2⟩
  obtain ⟨s, hs⟩ := Option.isSome_iff_exists.1 hs
  rw [hs] at k1
  cases x with
  | error e =>
    simp only [regselect, Model.fitSolver, hM]
    exact ⟨hX, by simp [k1]⟩
  | ok q =>
    obtain ⟨Q, Z, U⟩ := q
    rcases hfs : I.fit s (X.dataMatrix Q U) Z with ⟨s', a⟩
    have fM : M.fitSolver I states lhs inputs = (X.ws (some s'), a) := by
      simp only [Model.fitSolver, hM, k1, hfs]
      rfl
    have hY : (X.ws (some s')).Sim M := ⟨hX.1, hX.2, hX.3⟩
    cases a with
    | error e => simp only [regselect, fM]; exact ⟨hY, rfl⟩
    | ok _ =>
      cases cases with
      | error e => simp only [regselect, fM]; exact ⟨hY, rfl⟩
      | ok tt =>
        obtain ⟨tests, trains⟩ := tt
        have hT := trainingError_tame I hO tests trains (X.ws (some s'))
        obtain ⟨-, g2⟩ := gridsearch_same hT G.pow10 G.big G.optimiser c only _ _ (Model.Alike.refl _ _)
          (Model.Alike.refl _ _)
        have fin : ∀ A : Model K S, A.Alike cfg (X.ws (some s')) → A.Sim M ∧ A.solver.isSome := by
          intro A hA
          refine ⟨⟨hA.slots.trans hY.slots, hA.inputs.trans hY.inputs, hA.intrusive.trans hY.intrusive⟩, ?_⟩
          have := hA.solver
          cases hAs : A.solver with
          | none => rw [hAs] at this; simp [Model.ws] at this
          | some _ => rfl
        simp only [regselect, fM]
        rcases h1 : gridsearch G.pow10 G.big G.optimiser (trainingError I setReg tests trains) c only
          (X.ws (some s')) with ⟨A, u⟩
        rw [h1] at g2
        simp only at g2
        cases u with
        | error e => exact fin A g2
        | ok w => exact fin _ ((updateModel_alike I hO (Model.Alike.refl cfg A) w).2.2.trans g2)

theorem l2_refits [Field K] [DecidableEq K] (svd : Mat K → Except Err (Svd K)) (s t : L2 K K) :
    RefitsAt (l2Solver svd) (fun s : L2 K K => (s.data, s.pre)) s t := by
  intro D Z
  simp only [l2Solver]
  split
  · simp
  · simp only [L2.fit]
    cases templateFit (.mat D) (.mat (lhsMat Z)) with
    | error e => simp
    | ok DZ => cases hv : svd DZ.1 with
      | error e => simp [hv]
      | ok u => simp [hv]

theorem l2Dec_refits [Field K] [DecidableEq K] (svd : Mat K → Except Err (Svd K)) (s t : L2 (List K) K)
    (hs : s.reg = none) (ht : t.reg = none) :
    RefitsAt (l2DecSolver svd) (fun s : L2 (List K) K => (s.data, s.pre)) s t := by
  intro D Z
  simp only [l2DecSolver]
  split
  · simp
  · simp only [L2.fitDec, L2.fit]
    cases templateFit (.mat D) (.mat (lhsMat Z)) with
    | error e => simp
    | ok DZ => cases hv : svd DZ.1 with
      | error e => simp [hv]
      | ok u => simp [hv, hs, ht]

theorem tik_refits [Field K] (lstsq posSolve : Mat K → Mat K → Except Err (Mat K)) (s t : Tik (Mat K) K)
    (hs : s.reg = none) (ht : t.reg = none) (hm : s.method = t.method) :
    RefitsAt (tikSolver lstsq posSolve) (fun s : Tik (Mat K) K => (s.method, s.data, s.pre)) s t := by
  intro D Z
  simp only [tikSolver]
  split
  · simp
  · simp only [Tik.fit1, Tik.fit]
    cases templateFit (.mat D) (.mat (lhsMat Z)) with
    | error e => simp
    | ok DZ => simp [hs, ht, hm]

/-- One call of `fit_regselect_*`. -/
structure SelCall (K S : Type) where
  cases : Except Err (List (RegCase K (Model K S)) × List (TrainCase K (Model K S)))
  cands : Cands K
  only : Bool
  states : Arg K
  lhs : Arg K
  inputs : Option (Arg K)

/-- A sequence of calls on one object, whatever their outcomes. -/
def runSelects [Field K] [LinearOrder K] (I : SolverI K S) (setReg : S → Point K → S × Except Err Unit)
    (G : Search K) (M : Model K S) (calls : List (SelCall K S)) : Model K S :=
  calls.foldl (fun M c => (regselect I setReg G c.cases c.cands c.only M c.states c.lhs c.inputs).1) M

/-- **C50** (the part that holds). With an `L2Solver`, a selection after any sequence of (successful or failed)
selections, on data of any dimensions, has the outcome and gives the model of the same selection on the original
object. -/
theorem C50_l2_partial [Field K] [LinearOrder K] (svd : Mat K → Except Err (Svd K))
    (factory : Point K → Except Err (Option K)) (G : Search K) (M : Model K (L2 K K)) (hM : M.solver.isSome)
    (calls : List (SelCall K (L2 K K))) (c : SelCall K (L2 K K)) :
    let run := fun N => regselect (l2Solver svd) (l2SetReg factory) G c.cases c.cands c.only N c.states c.lhs c.inputs
    (run (runSelects (l2Solver svd) (l2SetReg factory) G M calls)).2 = (run M).2 ∧
    ((run M).2 = .ok () → (run (runSelects (l2Solver svd) (l2SetReg factory) G M calls)).1 = (run M).1) := by
  intro run
  have hO := l2SetReg_overwrites (K := K) factory
  have key : ∀ (calls : List (SelCall K (L2 K K))) (N : Model K (L2 K K)), N.Sim M → N.solver.isSome →
      (runSelects (l2Solver svd) (l2SetReg factory) G N calls).Sim M ∧
      (runSelects (l2Solver svd) (l2SetReg factory) G N calls).solver.isSome := by
    intro calls
    induction calls with
    | nil => intro N h1 h2; exact ⟨h1, h2⟩
    | cons c cs ih =>
      intro N h1 h2
      obtain ⟨g1, g2⟩ := regselect_sim (l2Solver svd) G hO c.cases c.cands c.only N h2 c.states c.lhs c.inputs
      exact ih _ ⟨g1.slots.trans h1.slots, g1.inputs.trans h1.inputs, g1.intrusive.trans h1.intrusive⟩ g2
  obtain ⟨k1, k2⟩ := key calls M ⟨rfl, rfl, rfl⟩ hM
  obtain ⟨s, hs⟩ := Option.isSome_iff_exists.1 k2
  obtain ⟨t, ht⟩ := Option.isSome_iff_exists.1 hM
  obtain ⟨e1, e2⟩ := C50_same_outcome (l2Solver svd) G hO c.cases c.cands c.only _ M k1 s t hs ht
    (l2_refits svd s t) c.states c.lhs c.inputs
  exact ⟨e1, fun h => e2 (e1.trans h)⟩

/-- **C50** (the part that holds). With a `TikhonovSolver` a further selection gives what it gives on the original
object, provided the solver has been reset in between. -/
theorem C50_tikhonov_reset_partial [Field K] [LinearOrder K] (lstsq posSolve : Mat K → Mat K → Except Err (Mat K))
    (factory : Point K → Except Err (Option (RegArg K))) (G : Search K) (M N : Model K (Tik (Mat K) K))
    (hMN : N.Sim M) (s t : Tik (Mat K) K) (hs : N.solver = some s) (ht : M.solver = some t) (hm : s.method = t.method)
    (hreg : t.reg = none) (c : SelCall K (Tik (Mat K) K)) :
    let run := fun N => regselect (tikSolver lstsq posSolve) (tikSetReg factory) G c.cases c.cands c.only N c.states
      c.lhs c.inputs
    (run (N.ws (some s.reset))).2 = (run M).2 ∧
    ((run M).2 = .ok () → (run (N.ws (some s.reset))).1 = (run M).1) := by
  intro run
  obtain ⟨e1, e2⟩ := C50_same_outcome (tikSolver lstsq posSolve) G (tikSetReg_overwrites (K := K) factory) c.cases c.cands
    c.only (N.ws (some s.reset)) M ⟨hMN.slots, hMN.inputs, hMN.intrusive⟩ s.reset t rfl ht
    (tik_refits lstsq posSolve s.reset t rfl hreg hm) c.states c.lhs c.inputs
  exact ⟨e1, fun h => e2 (e1.trans h)⟩

/-- **C50 is false of the code.** `fit_regselect_*` does not reset the solver. If a `TikhonovSolver` still holds the
regularization matrix of an earlier selection and the new data matrix has another number of columns, the selection
raises `DimensionalityError`, whatever the candidates are and however good they would be. -/
theorem C50_tikhonov_raises [Field K] [LinearOrder K] (lstsq posSolve : Mat K → Mat K → Except Err (Mat K))
    (setReg : Tik (Mat K) K → Point K → Tik (Mat K) K × Except Err Unit) (G : Search K)
    (M X : Model K (Tik (Mat K) K)) (s : Tik (Mat K) K) (hs : M.solver = some s) (c : SelCall K (Tik (Mat K) K))
    (Q Z : List (List K)) (U : Option (Nat × List (List K)))
    (hp : M.processFitArgs c.states c.lhs c.inputs = (X, .ok (Q, Z, U))) (hZ : Z ≠ []) (hZQ : Z.length = Q.length)
    (R : Mat K) (hreg : s.reg = some R) (hdim : R.ncols ≠ (X.dataMatrix Q U).ncols) :
    (regselect (tikSolver lstsq posSolve) setReg G c.cases c.cands c.only M c.states c.lhs c.inputs).2
      = .error .dimensionality := by
  have hk := (process_keeps hp).1
  rw [hs] at hk
  have hfit : ((tikSolver lstsq posSolve).fit s (X.dataMatrix Q U) Z).2 = .error .dimensionality := by
    have h1 : Z.isEmpty = false := by cases Z <;> simp_all
    have h2 : (X.dataMatrix Q U).nrows = Z.length := by rw [hZQ]; rfl
    simp only [tikSolver, h1, Bool.false_eq_true, if_false, Tik.fit1, Tik.fit, templateFit, lhsMat, h2, ne_eq,
      not_true_eq_false, hreg, tikShape]
    rw [if_neg (fun h => hdim h.2)]
  have fM : M.fitSolver (tikSolver lstsq posSolve) c.states c.lhs c.inputs
      = (X.ws (some ((tikSolver lstsq posSolve).fit s (X.dataMatrix Q U) Z).1), .error .dimensionality) := by
    simp only [Model.fitSolver, hp, hk, hfit]
    rfl
  simp only [regselect, fM]

/-! ### Stability decisions -/

/-- All entries are numbers. -/
def Traj.Finite (Q : Traj K) : Prop := ∀ col ∈ Q, ∀ x ∈ col, ∃ y, x = .num y

/-- Every entry that is a number is at most `B` away from the entry of `q` in the same row. -/
def Traj.Within [Field K] [LinearOrder K] (q : List K) (B : K) (Q : Traj K) : Prop :=
  ∀ col ∈ Q, ∀ (i : Nat) (y a : K), col[i]? = some (.num y) → q[i]? = some a → |y - a| ≤ B

theorem finite_iff (Q : Traj K) : Q.any (fun col => col.any fun x => !x.isFinite) = false ↔ Q.Finite := by
  simp only [Traj.Finite, any_eq_false, Bool.not_eq_true', Bool.not_eq_false, any_eq_true, not_exists, not_and]
  refine forall₂_congr fun col _ => forall₂_congr fun x _ => ?_
  cases x <;> simp [Val.isFinite]

theorem mem_dists [Field K] [LinearOrder K] (q : List K) (Q : Traj K) (d : Val K) :
    d ∈ Q.dists q ↔ ∃ col ∈ Q, ∃ (i : Nat) (x : Val K) (a : K), col[i]? = some x ∧ q[i]? = some a ∧ d = x.dist a := by
  simp only [Traj.dists, mem_flatten, mem_map, exists_exists_and_eq_and]
  refine exists_congr fun col => and_congr_right fun _ => ?_
  rw [mem_iff_getElem?]
  refine exists_congr fun i => ?_
  rw [getElem?_zipWith]
  cases hq : q[i]? <;> cases hc : col[i]? <;> simp [eq_comm]

theorem within_iff [Field K] [LinearOrder K] (q : List K) (B : K) (Q : Traj K) (hQ : Q.Finite) :
    ((Q.dists q).any fun d => (Val.num B).lt d) = false ↔ Q.Within q B := by
  simp only [any_eq_false, Traj.Within, mem_dists]
  constructor
  · intro h col hcol i y a h1 h2
    have := h _ ⟨col, hcol, i, _, a, h1, h2, rfl⟩
    simpa [Val.dist, Val.lt] using this
  · rintro h _ ⟨col, hcol, i, x, a, h1, h2, rfl⟩
    obtain ⟨y, rfl⟩ := hQ col hcol x (mem_of_getElem? h1)
    simpa [Val.dist, Val.lt] using h col hcol i y a h1 h2

theorem no_nan [Field K] [LinearOrder K] (q : List K) (Q : Traj K) (hQ : Q.Finite) :
    (Q.dists q).any (fun d => decide (d = .nan)) = false := by
  simp only [any_eq_false, mem_dists]
  rintro _ ⟨col, hcol, i, x, a, h1, h2, rfl⟩
  obtain ⟨y, rfl⟩ := hQ col hcol x (mem_of_getElem? h1)
  simp [Val.dist]

theorem not_inf_lt [LinearOrder K] (d : Val K) : (Val.inf : Val K).lt d = false := by cases d <;> rfl

section stability

variable [Field K] [LinearOrder K]

/-- **C49.** A fully discrete prediction of a training trajectory counts as stable exactly if all its entries are
finite and within the limit of the mean; the limit may be infinite. (An empty prediction raises.) -/
theorem C49_discrete_stable (shift : List K) (Q : Traj K) (hne : Q.dists shift ≠ []) :
    (∀ L, unstableDisc shift (.num L) Q = .ok false ↔ Q.Finite ∧ Q.Within shift L) ∧
    (unstableDisc shift .inf Q = .ok false ↔ Q.Finite) ∧
    (∀ limit, ∃ b, unstableDisc shift limit Q = .ok b) := by
  have hne' : (Q.dists shift).isEmpty = false := by cases h : Q.dists shift <;> simp_all
  by_cases hf : Q.Finite
  · have h1 := (finite_iff Q).2 hf
    have h2 := no_nan shift Q hf
    refine ⟨fun L => ?_, ?_, fun limit => ?_⟩
    · simp only [unstableDisc, h1, exceeds, hne', h2, Bool.false_eq_true, if_false, Except.ok.injEq,
        within_iff shift L Q hf, hf, true_and]
    · simp only [unstableDisc, h1, exceeds, hne', h2, Bool.false_eq_true, if_false, Except.ok.injEq, hf, iff_true,
        not_inf_lt, any_eq_false, not_false_eq_true, implies_true]
    · simp only [unstableDisc, h1, exceeds, hne', h2, Bool.false_eq_true, if_false]
      exact ⟨_, rfl⟩
  · have h1 : Q.any (fun col => col.any fun x => !x.isFinite) = true := by
      rw [← Bool.not_eq_false]; exact fun h => hf ((finite_iff Q).1 h)
    refine ⟨fun L => ?_, ?_, fun limit => ?_⟩
    · simp [unstableDisc, h1, hf]
    · simp [unstableDisc, h1, hf]
    · exact ⟨true, by simp only [unstableDisc, h1, if_true]⟩

/-- **C49.** A time-continuous prediction is unstable if the integrator stopped early; a complete finite prediction is
stable exactly if it is within the limit. -/
theorem C49_continuous_stable (shift : List K) (L : K) (size : Nat) (Q : Traj K) (hne : Q.dists shift ≠ []) :
    (Q.length ≠ size → unstableCont shift (.num L) size Q = .ok true) ∧
    (Q.length = size → Q.Finite → (unstableCont shift (.num L) size Q = .ok false ↔ Q.Within shift L)) := by
  refine ⟨fun h => by simp [unstableCont, h], fun h hf => ?_⟩
  have hne' : (Q.dists shift).isEmpty = false := by cases h : Q.dists shift <;> simp_all
  simp only [unstableCont, h, ne_eq, not_true_eq_false, if_false, exceeds, hne', no_nan shift Q hf,
    Bool.false_eq_true, Except.ok.injEq, within_iff shift L Q hf]

/-- **C49.** A test case is passed exactly if the prediction is finite and within the bound (if there is one) of the
initial condition; in continuous time it must also be complete. -/
theorem C49_test_case (q0 : List K) (bound : Option K) (Q : Traj K) (size : Nat) :
    (unstableBound q0 bound Q = false ↔ Q.Finite ∧ ∀ B ∈ bound, Q.Within q0 B) ∧
    (unstableTestCont size q0 bound Q = false ↔ Q.length = size ∧ Q.Finite ∧ ∀ B ∈ bound, Q.Within q0 B) := by
  have key : unstableBound q0 bound Q = false ↔ Q.Finite ∧ ∀ B ∈ bound, Q.Within q0 B := by
    by_cases hf : Q.Finite
    · simp only [unstableBound, (finite_iff Q).2 hf, Bool.false_eq_true, if_false, hf, true_and]
      cases bound with
      | none => simp
      | some B => simp only [within_iff q0 B Q hf, Option.mem_def, Option.some.injEq, forall_eq']
    · have h1 : Q.any (fun col => col.any fun x => !x.isFinite) = true := by
        rw [← Bool.not_eq_false]; exact fun h => hf ((finite_iff Q).1 h)
      simp [unstableBound, h1, hf]
  refine ⟨key, ?_⟩
  simp only [unstableTestCont]
  by_cases h : Q.length = size
  · simp only [h, ne_eq, not_true_eq_false, if_false, key, true_and]
  · simp [h]

theorem le_foldl_max' (l : List K) : ∀ a : K, a ≤ l.foldl max a ∧ ∀ x ∈ l, x ≤ l.foldl max a := by
  induction l with
  | nil => intro a; simp
  | cons b l ih =>
    intro a
    obtain ⟨h1, h2⟩ := ih (max a b)
    simp only [foldl_cons, mem_cons, forall_eq_or_imp]
    exact ⟨le_trans (le_max_left _ _) h1, le_trans (le_max_right _ _) h1, h2⟩

/-- **C49.** The training data pass their own stability check: for a margin of at least one, a prediction that
reproduces a (non-empty) training trajectory is stable. -/
theorem C49_training_data_stable [IsStrictOrderedRing K] (r : Nat) (margin : K) (hm : 1 ≤ margin) (Q : List (List K))
    (hQ : ∀ col ∈ Q, col.length = r) (hne : Q ≠ []) (hr : 0 < r) :
    ∃ l, stabilityLimit r margin Q = .ok l ∧ unstableDisc (meanCol r Q) l (finiteTraj Q) = .ok false := by
  have hlen : (meanCol r Q).length = r := by simp [meanCol, transpose]
  have hfin : (finiteTraj Q).Finite := by
    intro col hcol x hx
    obtain ⟨c, -, rfl⟩ := mem_map.1 hcol
    obtain ⟨y, -, rfl⟩ := mem_map.1 hx
    exact ⟨y, rfl⟩
  have hmem : ∀ col ∈ Q, ∀ (i : Nat) (y a : K), col[i]? = some y → (meanCol r Q)[i]? = some a →
      |y - a| ∈ (Q.map fun col => (zipWith (fun a b => |b - a|) (meanCol r Q) col)).flatten := by
    intro col hcol i y a h1 h2
    refine mem_flatten.2 ⟨_, mem_map.2 ⟨col, hcol, rfl⟩, ?_⟩
    rw [mem_iff_getElem?]
    exact ⟨i, by rw [getElem?_zipWith, h1, h2]⟩
  have hw : ∀ B, (∀ d ∈ (Q.map fun col => (zipWith (fun a b => |b - a|) (meanCol r Q) col)).flatten, d ≤ B) →
      (finiteTraj Q).Within (meanCol r Q) B := by
    intro B hB col hcol i y a h1 h2
    obtain ⟨c, hc, rfl⟩ := mem_map.1 hcol
    rw [getElem?_map, Option.map_eq_some_iff] at h1
    obtain ⟨z, hz, hzy⟩ := h1
    cases hzy
    exact hB _ (hmem c hc i _ a hz h2)
  have hdne : (finiteTraj Q).dists (meanCol r Q) ≠ [] := by
    obtain ⟨col, Q', rfl⟩ := exists_cons_of_ne_nil hne
    intro h
    have h0 : 0 < col.length := by rw [hQ col (by simp)]; exact hr
    have h0' : 0 < (meanCol r (col :: Q')).length := by rw [hlen]; exact hr
    have : (Val.num col[0]).dist (meanCol r (col :: Q'))[0] ∈ (finiteTraj (col :: Q')).dists (meanCol r (col :: Q')) :=
      (mem_dists _ _ _).2 ⟨col.map .num, by simp [finiteTraj], 0, _, _, by simp [h0],
        getElem?_eq_getElem h0', rfl⟩
    rw [h] at this
    cases this
  obtain ⟨s1, s2, -⟩ := C49_discrete_stable (meanCol r Q) (finiteTraj Q) hdne
  simp only [stabilityLimit]
  split
  · rename_i hnil
    obtain ⟨col, Q', rfl⟩ := exists_cons_of_ne_nil hne
    have h0 : 0 < col.length := by rw [hQ col (by simp)]; exact hr
    have h0' : 0 < (meanCol r (col :: Q')).length := by rw [hlen]; exact hr
    have := hmem col (by simp) 0 _ _ (getElem?_eq_getElem h0) (getElem?_eq_getElem h0')
    rw [hnil] at this
    cases this
  · rename_i d ds hd
    split
    · exact ⟨_, rfl, s2.2 hfin⟩
    · refine ⟨_, rfl, (s1 _).2 ⟨hfin, hw _ ?_⟩⟩
      rw [hd]
      have hmax : ∀ x ∈ d :: ds, x ≤ ds.foldl max d := by
        intro x hx
        rcases mem_cons.1 hx with rfl | hx
        · exact (le_foldl_max' ds _).1
        · exact (le_foldl_max' ds d).2 x hx
      have hnn : 0 ≤ ds.foldl max d := by
        have hdm : d ∈ (Q.map fun col => (zipWith (fun a b => |b - a|) (meanCol r Q) col)).flatten := by
          rw [hd]; simp
        obtain ⟨l, hl, hdl⟩ := mem_flatten.1 hdm
        obtain ⟨col, -, rfl⟩ := mem_map.1 hl
        obtain ⟨i, hi⟩ := mem_iff_getElem?.1 hdl
        rw [getElem?_zipWith] at hi
        have h0 : 0 ≤ d := by
          cases h1 : (meanCol r Q)[i]? <;> cases h2 : col[i]? <;> simp [h1, h2] at hi
          rw [← hi]; exact abs_nonneg _
        exact le_trans h0 (hmax d (by simp))
      intro x hx
      calc x ≤ ds.foldl max d := hmax x hx
        _ = 1 * ds.foldl max d := (one_mul _).symm
        _ ≤ margin * ds.foldl max d := mul_le_mul_of_nonneg_right hm hnn

end stability

/-! ### Examples -/

namespace RegEx

/-- Solves diagonal systems. -/
def diagSolve (A B : Mat ℚ) : Except Err (Mat ℚ) :=
  if A.rows = (Mat.diag (zipWith (fun i row => row.getD i 0) (range A.nrows) A.rows)).rows ∧
      ∀ x ∈ zipWith (fun i row => row.getD i 0) (range A.nrows) A.rows, x ≠ 0 then
    .ok ⟨B.nrows, B.ncols, zipWith (fun (d : ℚ) row => row.map (· / d))
      (zipWith (fun i row => row.getD i 0) (range A.nrows) A.rows) B.rows⟩
  else .error .linalg

/-- Square roots of the numbers that matter; other errors are large. -/
def root (y : ℚ) : ℚ :=
  if y = 25 then 5 else if y = 9 / 676 then 3 / 26 else if y = 9 / 289 then 3 / 17 else if y = 0 then 0 else 100

def tik : SolverI ℚ (Tik (Mat ℚ) ℚ) := tikSolver (fun _ _ => .error .linalg) diagSolve

/-- `regularizer_factory = lambda x: [x] * d`. -/
def factory (d : Nat) : Point ℚ → Except Err (Option (RegArg ℚ))
  | .num x => .ok (some (.diag (replicate d x)))
  | .vec xs => .ok (some (.diag xs))

def search : Search ℚ := ⟨id, 1000, fun _ => .fail .value⟩

/-- A discrete model with a linear operator and a fresh `TikhonovSolver`. -/
def fresh : Model ℚ (Tik (Mat ℚ) ℚ) := ⟨[⟨⟨.lin, none⟩, true⟩], false, none, some 0, false, some ⟨none, .normal, none, none⟩⟩

/-- Training on the trajectory `4, 3, 9/4`, with a test case. -/
def call1 (cands : List ℚ) : SelCall ℚ (Tik (Mat ℚ) ℚ) :=
  ⟨.ok ([discreteTest [1] 4 .none (some 2)], [discreteCase root 1 (.num (5 / 2)) [[4], [3]] 1 .none]),
    .nums cands, true, .mat 1 [[4], [3]], .mat 1 [[3], [9 / 4]], none⟩

/-- Training on a trajectory with two variables. -/
def call2 : SelCall ℚ (Tik (Mat ℚ) ℚ) :=
  ⟨.ok ([], [discreteCase root 2 (.num 10) [[4, 0], [0, 3]] 1 .none]),
    .nums [1], true, .mat 2 [[4, 0], [0, 3]], .mat 2 [[0, 3], [4, 0]], none⟩

def run (d : Nat) (c : SelCall ℚ (Tik (Mat ℚ) ℚ)) (M : Model ℚ (Tik (Mat ℚ) ℚ)) :=
  regselect tik (tikSetReg (factory d)) search c.cases c.cands c.only M c.states c.lhs c.inputs

/-- Regularization zero reproduces the data and wins. -/
example : (run 1 (call1 [1, 0]) fresh).2 = .ok () ∧
    (run 1 (call1 [1, 0]) fresh).1.slots = [⟨⟨.lin, some ⟨1, 1, [[3 / 4]]⟩⟩, true⟩] := by
  constructor <;> decide +kernel

/-- Otherwise the weakest candidate wins. -/
example : (run 1 (call1 [3, 1, 2]) fresh).2 = .ok () ∧
    (run 1 (call1 [3, 1, 2]) fresh).1.slots = [⟨⟨.lin, some ⟨1, 1, [[75 / 104]]⟩⟩, true⟩] := by
  constructor <;> decide +kernel

/-- A candidate that the solver rejects is passed over; if all are rejected a `RuntimeError` is raised. -/
example : (run 1 (call1 [-1, 1]) fresh).1.slots = [⟨⟨.lin, some ⟨1, 1, [[75 / 104]]⟩⟩, true⟩] ∧
    (run 1 (call1 [-1, -2]) fresh).2 = .error .runtime := by
  constructor <;> decide +kernel

/-- The hypotheses of `C49_selected` are satisfiable. -/
example : Overwrites (tikSetReg (factory 1)) (fun s : Tik (Mat ℚ) ℚ => (s.method, s.data, s.pre)) ∧
    (∀ st, (search.optimiser st).Honest []) ∧ Prior tik (tikSetReg (factory 1)) ⟨none, .normal, none, none⟩ :=
  ⟨tikSetReg_overwrites _, fun _ => trivial, tik_prior _ _ _ _ rfl⟩

/-- A prediction that leaves the bound, and one that is not finite. -/
example : unstableBound [(1 : ℚ)] (some 2) [[.num 1], [.num 4]] = true ∧
    unstableBound [(1 : ℚ)] none [[.num 1], [.nan]] = true ∧ unstableBound [(1 : ℚ)] (some 2) [[.num 3]] = false := by
  refine ⟨?_, ?_, ?_⟩ <;> decide +kernel

end RegEx

open RegEx in
/-- **C50 is false of the code**, concretely: the second selection, with two variables instead of one, succeeds on a
fresh object, but raises `DimensionalityError` on the object used for the first one. -/
theorem C50_second_call_witness : (run 1 (call1 [1, 0]) fresh).2 = .ok () ∧ (run 2 call2 fresh).2 = .ok () ∧
    (run 2 call2 (run 1 (call1 [1, 0]) fresh).1).2 = .error .dimensionality ∧
    (run 2 call2 ((run 1 (call1 [1, 0]) fresh).1.ws ((run 1 (call1 [1, 0]) fresh).1.solver.map Tik.reset))).2
      = .ok () := by
  refine ⟨?_, ?_, ?_, ?_⟩ <;> decide +kernel

end Opinf
