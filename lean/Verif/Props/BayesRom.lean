import Verif.Model.BayesRom
import Verif.Props.BayesSelect
import Verif.Props.RomSelect
import Verif.Props.RomHorizon

/-!
# C125: Bayesian reduced-order models

Property theorems about `BayesianROM` from the training data in the original state space on; the model is in
`Verif/Model/BayesRom.lean`.
-/

namespace Opinf

open List

variable {K T B S G C : Type}

/-! ### The constructor -/

/-- **C125, constructor.** A model is accepted exactly if it is not interpolatory and its solver is one of the four
regularized solvers; otherwise `AttributeError` is raised. There is no posterior yet, so that drawing operators and
predicting raise `AttributeError`. -/
theorem C125_constructor [AddMonoid K] (traits : ModelTraits) (rom : Rom K T B) (ddt : Option (DdtI K)) (model : Model K S)
    (g : G) (L : NormalLib K G) :
    ((∃ R, BFRom.make traits rom ddt model g = .ok R) ↔ traits.interpolatory = false ∧
      (traits.solver = some .l2 ∨ traits.solver = some .l2Decoupled ∨ traits.solver = some .tikhonov ∨
        traits.solver = some .tikhonovDecoupled)) ∧
    (∀ e, BFRom.make traits rom ddt model g = .error e → e = .attribute) ∧
    ∀ R, BFRom.make traits rom ddt model g = .ok R → R.base = FRom.make rom ddt model ∧
      (R.drawOperators L).2 = .error .attribute ∧
      ∀ (α : Type) (f : FRom K T B S → Except Err α), (R.predict L f).2 = .error .attribute := by
  obtain ⟨i, s⟩ := traits
  cases i with
  | true => simp [BFRom.make, validateModelSolver]
  | false =>
    cases s with
    | none => simp [BFRom.make, validateModelSolver]
    | some c =>
      cases c <;> simp [BFRom.make, validateModelSolver, validSolvers, BFRom.predict, BFRom.drawOperators, BFRom.core,
        BRom.drawOperators]

/-! ### Training -/

/-- **C125, `fit`.** Training a Bayesian reduced-order model is training the reduced-order model; if that fails, the
posterior stays as it was. Otherwise the posterior is that of the trained solver; if it raises `LinAlgError` there is none;
any other exception is passed on. -/
theorem C125_fit [CommRing K] (L : NormalLib K G) (I : SolverI K S) (Y : BayesI K S) (R : BFRom K T B S G)
    (states : TrainArg K) (lhs inputs : Option (TrainArg K)) (fitT fitB : Bool) (F : FRom K T B S) (x : Except Err Unit)
    (hF : R.base.fit I states lhs inputs fitT fitB = (F, x)) :
    (R.fit L I Y states lhs inputs fitT fitB).1.base = F ∧ (R.fit L I Y states lhs inputs fitT fitB).1.gen = R.gen ∧
    (∀ e, x = .error e → (R.fit L I Y states lhs inputs fitT fitB).2 = .error e ∧
      (R.fit L I Y states lhs inputs fitT fitB).1.posterior = R.posterior) ∧
    (x = .ok () → ∀ s, F.model.solver = some s →
      (∀ P, solverPosterior L Y s = .ok P → (R.fit L I Y states lhs inputs fitT fitB).2 = .ok () ∧
        (R.fit L I Y states lhs inputs fitT fitB).1.posterior = some P) ∧
      (solverPosterior L Y s = .error .linalg → (R.fit L I Y states lhs inputs fitT fitB).2 = .ok () ∧
        (R.fit L I Y states lhs inputs fitT fitB).1.posterior = none) ∧
      ∀ e, e ≠ .linalg → solverPosterior L Y s = .error e → (R.fit L I Y states lhs inputs fitT fitB).2 = .error e) := by
  cases x with
  | error e => simp [BFRom.fit, hF]
  | ok _ =>
    simp only [BFRom.fit, hF, BRom.initPosterior, BFRom.withCore]
    cases hs : F.model.solver with
    | none => simp
    | some s =>
      simp only
      cases hp : solverPosterior L Y s with
      | ok P => simp [hp]
      | error e => cases e <;> simp [hp, eq_comm]

/-! ### Draws -/

/-- `Ms` are the models after draws that follow each other, from `A` to `A'`. -/
inductive Draws [AddMonoid K] (L : NormalLib K G) : BRom K S G → List (Model K S) → BRom K S G → Prop
  | nil (A : BRom K S G) : Draws L A [] A
  | cons {A A₁ A₂ : BRom K S G} {Ms : List (Model K S)} : A.drawOperators L = (A₁, .ok ()) → Draws L A₁ Ms A₂ →
      Draws L A (A₁.model :: Ms) A₂

/-- `n` models drawn one after the other from the posterior `P` are all stable in the test case. -/
def Survives [AddMonoid K] (L : NormalLib K G) (n : Nat) (P : Posterior K) (c : RegCase K (Model K S)) : Prop :=
  ∃ (A A' : BRom K S G) (Ms : List (Model K S)), A.posterior = some P ∧ Draws L A Ms A' ∧ Ms.length = n ∧
    ∀ M ∈ Ms, ∃ Q, c.predict M = .ok Q ∧ c.unstable Q = false

/-- `n` models drawn one after the other from the posterior `P` are all stable for the training trajectory, and their
predictions have an error. -/
def Reproduces [AddMonoid K] (L : NormalLib K G) (n : Nat) (P : Posterior K) (c : BayesCase K S) : Prop :=
  ∃ (A A' : BRom K S G) (Ms : List (Model K S)) (Qs : List (Traj K)) (e : Val K), A.posterior = some P ∧ Draws L A Ms A' ∧
    Ms.length = n ∧ Forall₂ (fun M Q => c.predict M = .ok Q ∧ c.unstable Q = .ok false) Ms Qs ∧ c.error Qs = .ok e

theorem draw_posterior [AddMonoid K] {L : NormalLib K G} {A A' : BRom K S G} {x : Except Err Unit}
    (h : A.drawOperators L = (A', x)) : A'.posterior = A.posterior := by
  unfold BRom.drawOperators at h
  cases hP : A.posterior with
  | none => rw [hP] at h; cases h; exact hP
  | some P =>
    rw [hP] at h
    simp only at h
    rcases hr : P.rvs L A.gen with ⟨g, e | out⟩
    · rw [hr] at h; cases h; rfl
    · rw [hr] at h; cases h; rfl

theorem testDraws_ok [AddMonoid K] (L : NormalLib K G) (c : RegCase K (Model K S)) : ∀ (n : Nat) (A A' : BRom K S G),
    A.testDraws L c n = (A', .ok true) → A'.posterior = A.posterior ∧ ∃ Ms : List (Model K S), Draws L A Ms A' ∧
      Ms.length = n ∧ ∀ M ∈ Ms, ∃ Q, c.predict M = .ok Q ∧ c.unstable Q = false := by
  intro n
  induction n with
  | zero =>
    intro A A' h
    simp only [BRom.testDraws] at h
    cases h
    exact ⟨rfl, [], .nil _, rfl, by simp⟩
  | succ n ih =>
    intro A A' h
    simp only [BRom.testDraws] at h
    rcases hd : A.drawOperators L with ⟨A1, e | _⟩
    · rw [hd] at h; simp at h
    · rw [hd] at h
      simp only at h
      cases hQ : c.predict A1.model with
      | error e => rw [hQ] at h; simp at h
      | ok Q =>
        rw [hQ] at h
        simp only at h
        cases hu : c.unstable Q with
        | true => rw [hu] at h; simp at h
        | false =>
          rw [hu] at h
          simp only [Bool.false_eq_true, if_false] at h
          obtain ⟨h0, Ms, h1, h2, h3⟩ := ih A1 A' h
          refine ⟨h0.trans (draw_posterior hd), A1.model :: Ms, .cons hd h1, by simp [h2], ?_⟩
          intro M hM
          rcases mem_cons.mp hM with rfl | hM
          · exact ⟨Q, hQ, hu⟩
          · exact h3 M hM

theorem testLoop_ok [AddMonoid K] (L : NormalLib K G) (n : Nat) (P : Posterior K) : ∀ (cs : List (RegCase K (Model K S)))
    (A A' : BRom K S G), A.posterior = some P → A.testLoop L n cs = (A', .ok true) →
      A'.posterior = some P ∧ ∀ c ∈ cs, Survives L n P c := by
  intro cs
  induction cs with
  | nil =>
    intro A A' hA h
    simp only [BRom.testLoop] at h
    cases h
    exact ⟨hA, by simp⟩
  | cons c cs ih =>
    intro A A' hA h
    simp only [BRom.testLoop] at h
    rcases hd : A.testDraws L c n with ⟨A1, e | b⟩
    · rw [hd] at h; simp at h
    · rw [hd] at h
      cases b with
      | false => simp at h
      | true =>
        simp only at h
        obtain ⟨h0, Ms, h1, h2, h3⟩ := testDraws_ok L c n A A1 hd
        obtain ⟨h4, h5⟩ := ih A1 A' (h0.trans hA) h
        refine ⟨h4, fun x hx => ?_⟩
        rcases mem_cons.mp hx with rfl | hx
        · exact ⟨A, A1, Ms, hA, h1, h2, h3⟩
        · exact h5 x hx

theorem trainDraws_ok [AddMonoid K] (L : NormalLib K G) (c : BayesCase K S) : ∀ (n : Nat) (ds out : List (Traj K))
    (A A' : BRom K S G), A.trainDraws L c n ds = (A', .ok (some out)) → A'.posterior = A.posterior ∧
      ∃ (Ms : List (Model K S)) (Qs : List (Traj K)), Draws L A Ms A' ∧ Ms.length = n ∧
        Forall₂ (fun M Q => c.predict M = .ok Q ∧ c.unstable Q = .ok false) Ms Qs ∧ out = ds ++ Qs := by
  intro n
  induction n with
  | zero =>
    intro ds out A A' h
    simp only [BRom.trainDraws] at h
    cases h
    exact ⟨rfl, [], [], .nil _, rfl, .nil, by simp⟩
  | succ n ih =>
    intro ds out A A' h
    simp only [BRom.trainDraws] at h
    rcases hd : A.drawOperators L with ⟨A1, e | _⟩
    · rw [hd] at h; simp at h
    · rw [hd] at h
      simp only at h
      cases hQ : c.predict A1.model with
      | error e => rw [hQ] at h; simp at h
      | ok Q =>
        rw [hQ] at h
        simp only at h
        rcases hu : c.unstable Q with e | b
        · rw [hu] at h; simp at h
        · rw [hu] at h
          cases b with
          | true => simp at h
          | false =>
            simp only at h
            obtain ⟨h0, Ms, Qs, h1, h2, h3, h4⟩ := ih _ out A1 A' h
            exact ⟨h0.trans (draw_posterior hd), A1.model :: Ms, Q :: Qs, .cons hd h1, by simp [h2], .cons ⟨hQ, hu⟩ h3,
              by rw [h4, append_assoc]; rfl⟩

theorem trainLoop_ok [Field K] (L : NormalLib K G) (n : Nat) (P : Posterior K) : ∀ (cs : List (BayesCase K S)) (v w : Val K)
    (A A' : BRom K S G), A.posterior = some P → A.trainLoop L n v cs = (A', .ok (some w)) →
      ∀ c ∈ cs, Reproduces L n P c := by
  intro cs
  induction cs with
  | nil => intro v w A A' _ _; simp
  | cons c cs ih =>
    intro v w A A' hA h
    simp only [BRom.trainLoop] at h
    rcases hd : A.trainDraws L c n [] with ⟨A1, e | b⟩
    · rw [hd] at h; simp at h
    · rw [hd] at h
      cases b with
      | none => simp at h
      | some ds =>
        simp only at h
        cases he : c.error ds with
        | error e => rw [he] at h; simp at h
        | ok e =>
          rw [he] at h
          simp only at h
          obtain ⟨h0, Ms, Qs, h1, h2, h3, h4⟩ := trainDraws_ok L c n [] ds A A1 hd
          rw [nil_append] at h4
          subst h4
          intro x hx
          rcases mem_cons.mp hx with rfl | hx
          · exact ⟨A, A1, Ms, ds, e, hA, h1, h2, h3, he⟩
          · exact ih _ w A1 A' (h0.trans hA) h x hx

theorem evaluate_ok [Field K] [LinearOrder K] (L : NormalLib K G) (n : Nat) (P : Posterior K) (tests : List (RegCase K (Model K S)))
    (trains : List (BayesCase K S)) (A A' : BRom K S G) (v : Val K) (hA : A.posterior = some P)
    (h : A.evaluate L n tests trains = (A', .ok v)) (hv : v.lt .inf = true) :
    (∀ c ∈ tests, Survives L n P c) ∧ ∀ c ∈ trains, Reproduces L n P c := by
  simp only [BRom.evaluate] at h
  rcases hd : A.testLoop L n tests with ⟨A1, e | b⟩
  · rw [hd] at h; simp at h
  · rw [hd] at h
    cases b with
    | false =>
      simp only [Prod.mk.injEq, Except.ok.injEq] at h
      rw [← h.2] at hv
      simp [Val.lt] at hv
    | true =>
      obtain ⟨h1, h2⟩ := testLoop_ok L n P tests A A1 hA hd
      refine ⟨h2, ?_⟩
      simp only at h
      rcases ht : A1.trainLoop L n (.num 0) trains with ⟨A2, e | o⟩
      · rw [ht] at h; simp at h
      · rw [ht] at h
        cases o with
        | none =>
          simp only [Prod.mk.injEq, Except.ok.injEq] at h
          rw [← h.2] at hv
          simp [Val.lt] at hv
        | some w => exact trainLoop_ok L n P trains _ w A1 A2 h1 ht

/-! ### The selection on processed data -/

section select

variable [Field K] [LinearOrder K] (L : NormalLib K G) (I : SolverI K S) (Y : BayesI K S)
  {setReg : S → Point K → S × Except Err Unit} {cfg : S → C} (Sr : Search K)

theorem select_ok (hO : Overwrites setReg cfg) (ho : ∀ st, (Sr.optimiser st).Honest []) (n : Nat)
    (cases : Except Err (List (RegCase K (Model K S)) × List (BayesCase K S))) (c : Cands K) (only : Bool) (R R' : BRom K S G)
    (states lhs : Arg K) (inputs : Option (Arg K))
    (h : R.select L I Y setReg Sr n cases c only states lhs inputs = (R', .ok ())) :
    ∃ (M : Model K S) (s1 s2 : S) (w : Point K) (P : Posterior K) (tests : List (RegCase K (Model K S)))
      (trains : List (BayesCase K S)), R.model.fitSolver I states lhs inputs = (M, .ok ()) ∧ M.solver = some s1 ∧
      cases = .ok (tests, trains) ∧ setReg s1 w = (s2, .ok ()) ∧ R'.model.solver = some s2 ∧ solverPosterior L Y s2 = .ok P ∧
      R'.posterior = some P ∧ (∀ c ∈ tests, Survives L n P c) ∧ ∀ c ∈ trains, Reproduces L n P c := by
  unfold BRom.select at h
  rcases hf : R.model.fitSolver I states lhs inputs with ⟨M, x⟩
  rw [hf] at h
  cases x with
  | error e => simp at h
  | ok _ =>
    cases cases with
    | error e => simp at h
    | ok tt =>
      obtain ⟨tests, trains⟩ := tt
      simp only at h
      obtain ⟨X, Q, Z, U, s0, s1, -, -, -, rfl⟩ := fitSolver_ok hf
      have hI := learned_invariant L Y hO n tests trains s1 (G := G)
      rcases hg : gridsearch Sr.pow10 Sr.big Sr.optimiser (BRom.trainingError L Y setReg n tests trains) c only
        ({ R with model := X.ws (some s1) } : BRom K S G) with ⟨R2, y⟩
      rw [hg] at h
      cases y with
      | error e => simp at h
      | ok w =>
        simp only at h
        obtain ⟨⟨t2, ht2, hc2⟩, v, ⟨A, ⟨t, ht, hct⟩, hv⟩, hlt⟩ := gridsearch_visited hI Sr.pow10 Sr.big Sr.optimiser ho c only _ _ w
          ⟨s1, rfl, rfl⟩ hg
        obtain ⟨-, a2, a3, a4⟩ := update_spec L Y hO A w t ht
        obtain ⟨-, b2, b3, b4⟩ := update_spec L Y hO R2 w t2 ht2
        have hpost : (A.update L Y setReg w).2 = .ok () ∧ ∃ P, (A.update L Y setReg w).1.posterior = some P ∧
            (∀ c ∈ tests, Survives L n P c) ∧ ∀ c ∈ trains, Reproduces L n P c := by
          simp only [BRom.trainingError] at hv
          rcases hd : A.update L Y setReg w with ⟨A', x⟩
          rw [hd] at hv
          cases x with
          | error e => simp at hv
          | ok _ =>
            refine ⟨rfl, ?_⟩
            simp only at hv
            cases hP : A'.posterior with
            | some P =>
              rw [hP] at hv
              simp only at hv
              rcases hev : A'.evaluate L n tests trains with ⟨A'', z⟩
              rw [hev] at hv
              simp only at hv
              subst hv
              exact ⟨P, rfl, evaluate_ok L n P tests trains A' A'' v hP hev hlt⟩
            | none =>
              rw [hP] at hv
              simp only [Except.ok.injEq] at hv
              subst hv
              simp [Val.lt] at hlt
        obtain ⟨hok, P, hP, htested⟩ := hpost
        rw [a4 hok] at hP
        have hreg : (setReg t w).2 = .ok () := by
          rw [a3] at hok
          cases hr : (setReg t w).2 with
          | error e => rw [hr] at hok; simp at hok
          | ok _ => rfl
        obtain ⟨o1, o2⟩ := hO.same t s1 w hct
        obtain ⟨q1, q2⟩ := hO.same t t2 w (hct.trans hc2.symm)
        have hposterior : solverPosterior L Y (setReg s1 w).1 = .ok P := by
          rw [← o2 hreg]
          cases hsp : solverPosterior L Y (setReg t w).1 with
          | error e => rw [hsp] at hP; simp [Except.toOption] at hP
          | ok P' => rw [hsp] at hP; simp only [Except.toOption, Option.some.injEq] at hP; rw [hP]
        refine ⟨_, s1, (setReg s1 w).1, w, P, tests, trains, rfl, rfl, rfl, ?_, ?_, hposterior, ?_, htested.1, htested.2⟩
        · rw [← hreg, o1]
        · have := congrArg (fun z => z.1.model.solver) h
          simp only at this
          rw [← this, b2, ← o2 hreg, q2 hreg]
        · have h1 := congrArg (fun z => z.1.posterior) h
          have h2 := congrArg Prod.snd h
          simp only at h1 h2
          rw [← h1, b4 h2, ← q2 hreg, o2 hreg, hposterior]
          rfl

end select

/-! ### The selection from the training data on -/

/-- The Bayesian reduced-order model whose solver is `s`. -/
def BFRom.withSolver (R : BFRom K T B S G) (s : S) : BFRom K T B S G := { R with base := R.base.withSolver s }

/-- `R'` is the result of selecting the regularization: there are a selected regularization `w` and a posterior `P` such that
`R'` has the posterior `P`, the draws from `P` are stable in all test cases and for all training trajectories, and `R'` has
the posterior, the solver, the transformer and the basis that `train` gives when `w` is set beforehand. -/
def BayesSelected [Field K] (L : NormalLib K G) (n : Nat) (setReg : S → Point K → S × Except Err Unit) (s : S)
    (train : S → BFRom K T B S G → Prop) (tests : List (RegCase K (Model K S))) (trains : List (BayesCase K S))
    (R' : BFRom K T B S G) : Prop :=
  ∃ w s' P, setReg s w = (s', .ok ()) ∧ R'.posterior = some P ∧ (∀ c ∈ tests, Survives L n P c) ∧
    (∀ c ∈ trains, Reproduces L n P c) ∧
    ∀ N, train s' N → N.posterior = R'.posterior ∧ N.base.rom = R'.base.rom ∧ N.base.ddt = R'.base.ddt ∧
      N.base.model.solver = R'.base.model.solver

theorem refit_solver [AddMonoid K] (I : SolverI K S) (M : Model K S) : (M.refit I).1.solver = M.solver := by
  unfold Model.refit
  split
  · rfl
  · split
    · rfl
    · split <;> rfl

theorem afterReset_ok [Field K] [LinearOrder K] (L : NormalLib K G) (I : SolverI K S) (Y : BayesI K S)
    {setReg : S → Point K → S × Except Err Unit} {cfg : S → C} (Sr : Search K) (hO : Overwrites setReg cfg)
    (ho : ∀ st, (Sr.optimiser st).Honest []) (n : Nat)
    (cases : Rom K T B → TrainData K → Except Err (List (RegCase K (Model K S)) × List (BayesCase K S)))
    (c : Cands K) (only : Bool) (R R' : BFRom K T B S G) (hint : R.base.model.intrusive = false) (s : S)
    (hs : R.base.model.solver = some s) (hcom : Commute I setReg s) (qs : List (Snap K)) (zs us : Option (List (Snap K)))
    (fitT fitB : Bool) (hd : R.base.rom.continuous = true ∨ zs = none)
    (h : R.afterReset L I Y setReg Sr n cases c only qs zs us fitT fitB = (R', .ok ())) :
    R.base.checkFitArgs zs.isNone us.isNone = .ok () ∧
    ∃ R1 d tests trains, R.base.process qs zs us fitT fitB = (R1, .ok d) ∧ R'.base.rom = R1.rom ∧
      cases R1.rom d = .ok (tests, trains) ∧ BayesSelected L n setReg s (fun s' N => ∃ F,
        (R.base.withSolver s').fitLists I qs zs us fitT fitB = (F, .ok ()) ∧ N.base = F ∧
        ∀ t, F.model.solver = some t → ∀ P, solverPosterior L Y t = .ok P → N.posterior = some P) tests trains R' := by
  unfold BFRom.afterReset at h
  cases hck : R.base.checkFitArgs zs.isNone us.isNone with
  | error e => rw [hck] at h; cases h
  | ok _ =>
    rw [hck] at h
    simp only at h
    refine ⟨rfl, ?_⟩
    rcases hp : R.base.process qs zs us fitT fitB with ⟨F, e | d⟩
    · rw [hp] at h; simp at h
    · rw [hp] at h
      simp only at h
      cases hst : d.stacked with
      | error e => rw [hst] at h; simp at h
      | ok q =>
        obtain ⟨Q, Z, U⟩ := q
        rw [hst] at h
        simp only at h
        have hFm := (process_rest _ _ _ _ _ _ _ _ hp).1
        rcases hsel : BRom.select L I Y setReg Sr n (cases F.rom d) c only (⟨F.model, R.posterior, R.gen⟩ : BRom K S G)
          Q.toArg Z.toArg (U.map Snap.toArg) with ⟨A, x⟩
        rw [hsel] at h
        simp only [Prod.mk.injEq] at h
        obtain ⟨hR', rfl⟩ := h
        obtain ⟨M, s1, s2, w, P, tests, trains, f1, f2, f3, f4, f5, f6, f7, f8, f9⟩ := select_ok L I Y Sr hO ho n _ c only _ A _ _ _ hsel
        simp only at f1
        rw [hFm] at f1
        obtain ⟨X, Q', Z', U', s0, t, g1, g2, g3, g4⟩ := fitSolver_ok f1
        rw [hs] at g2
        cases g2
        rw [g4] at f2
        simp only [Model.ws, Option.some.injEq] at f2
        subst f2
        obtain ⟨s', k1, k2⟩ := hcom.1 _ _ _ _ _ g3 f4
        refine ⟨F, d, tests, trains, rfl, by rw [← hR']; rfl, f3, w, s', P, k1, by rw [← hR']; exact f7, f8, f9, ?_⟩
        rintro N ⟨F', h1, h2, h3⟩
        obtain ⟨e1, e2⟩ := (fitLists_iff I R.base F s' qs zs us fitT fitB hd d hp Q Z U hst F').1 h1
        have hws := process_ws R.base.model (some s') Q.toArg Z.toArg (U.map Snap.toArg)
        simp only [Model.ws] at hws
        have hni : ¬ ({ R.base.model with solver := some s' } : Model K S).intrusive = true := by simp [hint]
        rw [Model.fit, if_neg hni, Model.fitSolver, hws, g1] at e2
        simp only at e2
        have hdm : ({ X with solver := some s' } : Model K S).dataMatrix Q' U' = X.dataMatrix Q' U' := rfl
        rw [hdm, k2] at e2
        simp only at e2
        have e3 := congrArg (fun z => z.1.solver) e2
        simp only [refit_solver] at e3
        have e4 : F'.model.solver = some s2 := e3.symm
        refine ⟨(h3 s2 e4 P f6).trans (by rw [← hR']; exact f7.symm), ?_, ?_, ?_⟩
        · rw [h2, e1, ← hR']; rfl
        · rw [h2, e1, ← hR']; rfl
        · rw [h2, e4, ← hR']; exact f5.symm

theorem bfit_trains [CommRing K] (L : NormalLib K G) (I : SolverI K S) (Y : BayesI K S) (R N : BFRom K T B S G)
    (states : TrainArg K) (lhs inputs : Option (TrainArg K)) (fitT fitB : Bool)
    (h : R.fit L I Y states lhs inputs fitT fitB = (N, .ok ())) :
    ∃ F, R.base.fit I states lhs inputs fitT fitB = (F, .ok ()) ∧ N.base = F ∧
      ∀ t, F.model.solver = some t → ∀ P, solverPosterior L Y t = .ok P → N.posterior = some P := by
  rcases hF : R.base.fit I states lhs inputs fitT fitB with ⟨F, x⟩
  obtain ⟨h1, -, h3, h4⟩ := C125_fit L I Y R states lhs inputs fitT fitB F x hF
  rw [h] at h1 h3 h4
  cases x with
  | error e => exact absurd (h3 e rfl).1 (by simp)
  | ok _ => exact ⟨F, rfl, h1, fun t ht P hP => ((h4 rfl t ht).1 P hP).2⟩

theorem reset_process (Y : BayesI K S) (R : BFRom K T B S G) (qs : List (Snap K)) (zs us : Option (List (Snap K)))
    (fitT fitB : Bool) (R1 : FRom K T B S) (d : TrainData K) (h : (R.reset Y).base.process qs zs us fitT fitB = (R1, .ok d)) :
    ∃ R2, R.base.process qs zs us fitT fitB = (R2, .ok d) ∧ R1.rom = R2.rom := by
  have := process_withModel R.base { R.base.model with solver := R.base.model.solver.map Y.reset } qs zs us fitT fitB
  change (R.reset Y).base.process qs zs us fitT fitB = _ at this
  rw [h, Prod.mk.injEq] at this
  exact ⟨(R.base.process qs zs us fitT fitB).1, Prod.ext rfl this.2.symm, by rw [this.1]; rfl⟩

/-- **C125.** If `fit_regselect_discrete` of a Bayesian reduced-order model completes, there is a posterior. All operators
that were drawn from it, as many as asked for, were stable for each test case and for each training trajectory. And the
posterior, the solver, the transformer and the basis are those that `fit` with the same training data gives, if it succeeds,
when the solver is reset and the selected regularization is set beforehand. -/
theorem C125_discrete [Field K] [LinearOrder K] (L : NormalLib K G) (I : SolverI K S) (Y : BayesI K S)
    {setReg : S → Point K → S × Except Err Unit} {cfg : S → C} (Sr : Search K) (hO : Overwrites setReg cfg)
    (ho : ∀ st, (Sr.optimiser st).Honest []) (draws : Nat) (sqrt : K → K) (c : Cands K) (R R' : BFRom K T B S G)
    (hint : R.base.model.intrusive = false) (s : S) (hs : R.base.model.solver = some s)
    (hcom : Commute I setReg (Y.reset s)) (states : TrainArg K) (inputs : Option (TrainArg K)) (fitT fitB only : Bool)
    (numTest : Int) (margin : K) (tests : List (DiscTest K))
    (h : R.selectDiscrete L I Y setReg Sr draws sqrt c states inputs fitT fitB only numTest margin tests = (R', .ok ())) :
    ∃ qs us R1 d tests' trains, fixLists states none inputs = .ok (qs, none, us) ∧
      R.base.process qs none us fitT fitB = (R1, .ok d) ∧ R'.base.rom = R1.rom ∧
      bayesDiscCases sqrt margin numTest.toNat tests us R1.rom d = .ok (tests', trains) ∧
      BayesSelected L draws setReg (Y.reset s)
        (fun s' N => (R.withSolver s').fit L I Y states none inputs fitT fitB = (N, .ok ())) tests' trains R' := by
  rw [BFRom.selectDiscrete] at h
  cases hc : R.base.rom.continuous with
  | true => rw [hc, if_pos rfl] at h; cases h
  | false =>
    rw [hc, if_neg (by simp)] at h
    cases hl : fixLists states none inputs with
    | error e => rw [hl] at h; cases h
    | ok x =>
      obtain ⟨qs, zs, us⟩ := x
      rw [hl] at h
      obtain ⟨n1, n2⟩ := isNone_of_fixLists hl
      have hz : zs = none := Option.isNone_iff_eq_none.mp n1
      subst hz
      simp only at h
      split at h
      · cases h
      · cases hci : checkSelInputs qs numTest.toNat us with
        | error e => rw [hci] at h; cases h
        | ok y =>
          rw [hci] at h
          simp only at h
          have hs' : (R.reset Y).base.model.solver = some (Y.reset s) := by simp [BFRom.reset, hs]
          obtain ⟨hck, R1, d, tests', trains, h1, h0, h2, w, s', P, k1, k2, k3, k4, k5⟩ := afterReset_ok L I Y Sr hO ho draws _ c only
            (R.reset Y) R' hint (Y.reset s) hs' hcom qs none us fitT fitB (Or.inr rfl) h
          obtain ⟨R2, p1, p2⟩ := reset_process Y R qs none us fitT fitB R1 d h1
          rw [p2] at h0 h2
          refine ⟨qs, us, R2, d, tests', trains, rfl, p1, h0, h2, w, s', P, k1, k2, k3, k4, ?_⟩
          intro N hN
          refine k5 N ?_
          obtain ⟨F, f1, f2, f3⟩ := bfit_trains L I Y _ N states none inputs fitT fitB hN
          refine ⟨F, ?_, f2, f3⟩
          rw [← f1]
          change _ = (R.base.withSolver s').fit I states none inputs fitT fitB
          rw [FRom.fit]
          change _ = (match R.base.checkFitArgs _ _ with | .error e => _ | .ok () => _)
          rw [← n2]
          change R.base.checkFitArgs _ _ = _ at hck
          simp only [Option.isNone_none] at hck ⊢
          rw [hck]
          simp only [hl]
          rfl

/-- **C125.** The same for `fit_regselect_continuous`, with the input functions evaluated over the time domains. -/
theorem C125_continuous [Field K] [LinearOrder K] [FloorRing K] (L : NormalLib K G) (I : SolverI K S) (Y : BayesI K S)
    {setReg : S → Point K → S × Except Err Unit} {cfg : S → C} (Sr : Search K) (hO : Overwrites setReg cfg)
    (ho : ∀ st, (Sr.optimiser st).Honest []) (draws : Nat) (sim : Integrator K S) (p2 : PNorm K) (c : Cands K)
    (times : OneOrMany (List K)) (R R' : BFRom K T B S G) (hint : R.base.model.intrusive = false) (s : S)
    (hs : R.base.model.solver = some s) (hcom : Commute I setReg (Y.reset s)) (states : TrainArg K)
    (ddts : Option (TrainArg K)) (inputs : Option (OneOrMany (K → List K))) (fitT fitB only : Bool) (testTime margin : K)
    (tests : List (ContTest K))
    (h : R.selectContinuous L I Y setReg Sr draws sim p2 c times states ddts inputs fitT fitB only testTime margin tests
      = (R', .ok ())) :
    ∃ qs zs ts us U R1 d tests' trains, fixContArgs times states ddts inputs testTime = .ok (qs, zs, ts, us, U) ∧
      R.base.process qs zs U fitT fitB = (R1, .ok d) ∧ R'.base.rom = R1.rom ∧
      bayesContCases sim p2 margin testTime tests qs us ts R1.rom d = .ok (tests', trains) ∧
      BayesSelected L draws setReg (Y.reset s)
        (fun s' N => (R.withSolver s').fit L I Y (.many qs) (zs.map .many) (U.map .many) fitT fitB = (N, .ok ())) tests' trains
        R' := by
  rw [BFRom.selectContinuous] at h
  cases hc : R.base.rom.continuous with
  | false => rw [hc, if_pos (by rfl)] at h; cases h
  | true =>
    rw [hc, if_neg (by simp)] at h
    cases hl : fixContArgs times states ddts inputs testTime with
    | error e => rw [hl] at h; cases h
    | ok x =>
      obtain ⟨qs, zs, ts, us, U⟩ := x
      rw [hl] at h
      simp only at h
      obtain ⟨single, -, -, hq, -⟩ := fixContArgs_ok hl
      have hs' : (R.reset Y).base.model.solver = some (Y.reset s) := by simp [BFRom.reset, hs]
      obtain ⟨hck, R1, d, tests', trains, h1, h0, h2, w, s', P, k1, k2, k3, k4, k5⟩ := afterReset_ok L I Y Sr hO ho draws _ c only
        (R.reset Y) R' hint (Y.reset s) hs' hcom qs zs U fitT fitB (Or.inl hc) h
      obtain ⟨R2, q1, q2⟩ := reset_process Y R qs zs U fitT fitB R1 d h1
      rw [q2] at h0 h2
      refine ⟨qs, zs, ts, us, U, R2, d, tests', trains, rfl, q1, h0, h2, w, s', P, k1, k2, k3, k4, ?_⟩
      intro N hN
      refine k5 N ?_
      obtain ⟨F, f1, f2, f3⟩ := bfit_trains L I Y _ N _ _ _ fitT fitB hN
      refine ⟨F, ?_, f2, f3⟩
      rw [← f1]
      change _ = (R.base.withSolver s').fit I (.many qs) (zs.map .many) (U.map .many) fitT fitB
      rw [FRom.fit]
      change _ = (match R.base.checkFitArgs _ _ with | .error e => _ | .ok () => _)
      change R.base.checkFitArgs _ _ = _ at hck
      rw [Option.isNone_map, Option.isNone_map, hck]
      simp only [fixLists_many hq]
      rfl

/-! ### Examples -/

namespace BayesRomEx

open RegEx BayesSelEx

def bare (continuous : Bool) : BFRom ℚ Unit Unit (Tik (Mat ℚ) ℚ) Nat := ⟨bareRom continuous, none, 0⟩

/-- Selection with two draws for the trajectory 4, 3, 9/4 and one test case. -/
def shrinking (cands : List ℚ) : BFRom ℚ Unit Unit (Tik (Mat ℚ) ℚ) Nat × Except Err Unit :=
  (bare false).selectDiscrete meanLib tik bayes (tikSetReg (factory 1)) search 2 root (.nums cands)
    (.one (.mat 3 [[4, 3, 9 / 4]])) none true true true 1 10 [⟨[1], 4, .none, some 2⟩]

/-- `fit` with regularization 1 for the same data. -/
def shrinkingFit : BFRom ℚ Unit Unit (Tik (Mat ℚ) ℚ) Nat × Except Err Unit :=
  (BFRom.withSolver (bare false) (tikSetReg (factory 1) ⟨none, .normal, none, none⟩ (.num 1)).1).fit meanLib tik bayes
    (.one (.mat 3 [[4, 3, 9 / 4]])) none none true true

/-- **C125, finding.** The operators of the model itself do not belong to the posterior after a selection: they are what was
drawn for the candidate evaluated last, here 3, though 1 is selected; they depend on candidates that are not selected.
After `fit` they belong to it. -/
theorem C125_leftover_witness :
    (shrinking [3, 1, 2]).2 = .ok () ∧ (shrinking [1, 2]).2 = .ok () ∧
    (shrinking [3, 1, 2]).1.posterior.map Posterior.means = some [[75 / 104]] ∧
    (shrinking [1, 2]).1.posterior = (shrinking [3, 1, 2]).1.posterior ∧
    (shrinking [3, 1, 2]).1.base.model.predict [1] 2 .none = .ok [[1], [75 / 136]] ∧
    (shrinking [1, 2]).1.base.model.predict [1] 2 .none = .ok [[1], [75 / 116]] ∧
    shrinkingFit.2 = .ok () ∧ shrinkingFit.1.posterior = (shrinking [3, 1, 2]).1.posterior ∧
    shrinkingFit.1.base.model.predict [1] 2 .none = .ok [[1], [75 / 104]] := by
  refine ⟨?_, ?_, ?_, ?_, ?_, ?_, ?_, ?_, ?_⟩ <;> decide +kernel

/-- C125 applies to this selection. -/
example : ∃ d tests trains, bayesDiscCases root 10 1 [⟨[1], 4, .none, some 2⟩] none (shrinking [3, 1, 2]).1.base.rom d
      = .ok (tests, trains) ∧
    BayesSelected meanLib 2 (tikSetReg (factory 1)) ⟨none, .normal, none, none⟩
      (fun s' N => ((bare false).withSolver s').fit meanLib tik bayes (.one (.mat 3 [[4, 3, 9 / 4]])) none none true true
        = (N, .ok ())) tests trains (shrinking [3, 1, 2]).1 := by
  obtain ⟨qs, us, R1, d, tests, trains, h1, -, h2, h3, h4⟩ := C125_discrete meanLib tik bayes (setReg := tikSetReg (factory 1))
    search (tikSetReg_overwrites _) (fun _ => trivial) 2 root (.nums [3, 1, 2]) (bare false) (shrinking [3, 1, 2]).1 rfl
    ⟨none, .normal, none, none⟩ rfl (tik_commute _ _ _ _ rfl) (.one (.mat 3 [[4, 3, 9 / 4]])) none true true true 1 10
    [⟨[1], 4, .none, some 2⟩] (Prod.ext (x := shrinking [3, 1, 2]) rfl (by decide +kernel))
  cases h1
  rw [← h2] at h3
  exact ⟨d, tests, trains, h3, h4⟩

/-- Selection for a time-continuous model and an integrator that returns the initial value. -/
def resting : BFRom ℚ Unit Unit (Tik (Mat ℚ) ℚ) Nat × Except Err Unit :=
  (bare true).selectContinuous meanLib tik bayes (tikSetReg (factory 1)) search 1 (fun _ q0 t _ => .ok (t.map fun _ => q0.map .num))
    oneNorm (.nums [1]) (.one [0, 1]) (.one (.mat 2 [[1, 3]])) (some (.one (.mat 2 [[2, 1]]))) none true true true 4 10 []

example : ∃ d tests trains, bayesContCases (fun _ q0 t _ => .ok (t.map fun _ => q0.map .num)) oneNorm 10 4 []
      [.mat 2 [[1, 3]]] none [[0, 1]] resting.1.base.rom d = .ok (tests, trains) ∧
    BayesSelected meanLib 1 (tikSetReg (factory 1)) ⟨none, .normal, none, none⟩
      (fun s' N => ((bare true).withSolver s').fit meanLib tik bayes (.many [.mat 2 [[1, 3]]]) (some (.many [.mat 2 [[2, 1]]]))
        none true true = (N, .ok ())) tests trains resting.1 := by
  obtain ⟨qs, zs, ts, us, U, R1, d, tests, trains, h1, -, h2, h3, h4⟩ := C125_continuous meanLib tik bayes
    (setReg := tikSetReg (factory 1)) search (tikSetReg_overwrites _) (fun _ => trivial) 1
    (fun _ q0 t _ => .ok (t.map fun _ => q0.map .num)) oneNorm (.nums [1]) (.one [0, 1]) (bare true) resting.1 rfl
    ⟨none, .normal, none, none⟩ rfl (tik_commute _ _ _ _ rfl) (.one (.mat 2 [[1, 3]])) (some (.one (.mat 2 [[2, 1]]))) none
    true true true 4 10 [] (Prod.ext (x := resting) rfl (by decide +kernel))
  cases h1
  rw [← h2] at h3
  exact ⟨d, tests, trains, h3, h4⟩

/-- Both outcomes of the constructor and of `fit` occur. -/
example : (BFRom.make ⟨false, some .tikhonov⟩ (bareRom false).rom none (bareRom false).model 0).toOption.isSome = true ∧
    (BFRom.make ⟨true, some .tikhonov⟩ (bareRom false).rom none (bareRom false).model 0).toOption.isSome = false ∧
    (BFRom.make ⟨false, some .totalLeastSquares⟩ (bareRom false).rom none (bareRom false).model 0).toOption.isSome = false ∧
    ((bare false).fit meanLib tik bayes (.one (.mat 3 [[4, 3, 9 / 4]])) (some (.one (.mat 3 [[4, 3, 9 / 4]]))) none true true).2
      ≠ .ok () := by
  refine ⟨rfl, rfl, rfl, ?_⟩
  decide +kernel

end BayesRomEx

end Opinf
