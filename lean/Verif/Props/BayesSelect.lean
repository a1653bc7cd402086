import Verif.Lemmas.Bayes
import Verif.Props.RegSelect
import Verif.Props.Bayes
import Verif.Props.Fit

/-!
# C65: selecting the regularization of a Bayesian model
-/

namespace Opinf

open List

variable {K S G C : Type}

/-! ### A draw becomes the model -/

/-- **C65**, drawing: with a posterior made from precision matrices of the right dimensions, `draw_operators` succeeds
and afterwards the operator matrix of the model is the drawn matrix; known operators and the posterior stay. -/
theorem C65_draw [Field K] (L : NormalLib K G) (hL : L.Lawful) (R : BRom K S G) (ms ps : List (NdArg K)) (P : Posterior K)
    (hP : R.posterior = some P) (hmake : Posterior.make L ms ps false = .ok P) (m : Nat)
    (hMr : R.model.r = some ms.length) (hMm : R.model.m = some m)
    (hknown : ∀ s ∈ R.model.slots, s.infer = false → s.op.entries.isSome)
    (hex : ∃ s ∈ R.model.slots, s.infer = true)
    (hd : ∀ mu ∈ P.means, mu.length = (R.model.toInfer.map fun o => o.dim ms.length m).sum) :
    (R.drawOperators L).2 = .ok () ∧
    (R.drawOperators L).1.model.operatorMatrix =
      .ok ⟨ms.length, (R.model.toInfer.map fun o => o.dim ms.length m).sum, (sampleAll L P.means P.covs R.gen).1⟩ ∧
    (R.drawOperators L).1.model.slots.filter (fun s => !s.infer) = R.model.slots.filter (fun s => !s.infer) ∧
    (R.drawOperators L).1.posterior = some P ∧
    (R.drawOperators L).1.gen = (sampleAll L P.means P.covs R.gen).2 := by
  obtain ⟨d1, d2, d3⟩ := C55_draw L hL ms ps P _ hmake hd R.gen
  obtain ⟨hS, hms, -, -⟩ := C55_constructor L hL ms ps false P hmake
  have hpos : 0 < ms.length := by
    rw [hms, length_map, Posterior.means, length_map]
    exact length_pos_iff.2 hS.nonempty
  obtain ⟨e1, e2, e3, -⟩ := C14_extract_roundtrip R.model ms.length m hpos hMr hMm hknown hex
    ⟨ms.length, (R.model.toInfer.map fun o => o.dim ms.length m).sum, (sampleAll L P.means P.covs R.gen).1⟩ ⟨d2, d3⟩ rfl rfl
  unfold BRom.drawOperators
  rw [hP]
  simp only
  rw [d1]
  simp only [Model.extractDraw]
  refine ⟨e1, e2, e3, ?_⟩
  simp

/-- **C65**, drawing without a posterior raises and changes nothing. -/
theorem C65_draw_none [AddMonoid K] (L : NormalLib K G) (R : BRom K S G) (hP : R.posterior = none) :
    R.drawOperators L = (R, .error .attribute) := by
  unfold BRom.drawOperators
  rw [hP]

/-! ### The selection -/

theorem fitSolver_alike [Field K] (I : SolverI K S) {cfg : S → C} {M N : Model K S} (hMN : M.Sim N) (s t : S)
    (hs : M.solver = some s) (ht : N.solver = some t) (hR : RefitsAt I cfg s t) (states lhs : Arg K)
    (inputs : Option (Arg K)) :
    (M.fitSolver I states lhs inputs).2 = (N.fitSolver I states lhs inputs).2 ∧
    ((M.fitSolver I states lhs inputs).2 = .ok () →
      (M.fitSolver I states lhs inputs).1.Alike cfg (N.fitSolver I states lhs inputs).1 ∧
      (M.fitSolver I states lhs inputs).1.intrusive = M.intrusive) := by
  obtain ⟨p1, p2, p3⟩ := process_sim hMN states lhs inputs
  rcases hM : M.processFitArgs states lhs inputs with ⟨X, x⟩
  rcases hN : N.processFitArgs states lhs inputs with ⟨Y, y⟩
  have kM := process_keeps hM
  have kN := (process_keeps hN).1
  rw [hM, hN] at p1 p2 p3
  simp only at p1 p2 p3
  subst p1
  cases x with
  | error e => simp [Model.fitSolver, hM, hN]
  | ok q =>
    obtain ⟨Q, Z, U⟩ := q
    have hX := p3 _ rfl
    rw [hs] at hX
    rw [ht] at kN
    have kM1 := kM.1
    rw [hs] at kM1
    have hd : X.dataMatrix Q U = Y.dataMatrix Q U := by rw [hX]; rfl
    obtain ⟨r1, r2⟩ := hR (Y.dataMatrix Q U) Z
    rcases hfs : I.fit s (Y.dataMatrix Q U) Z with ⟨s', a⟩
    rcases hft : I.fit t (Y.dataMatrix Q U) Z with ⟨t', b⟩
    rw [hfs, hft] at r1 r2
    simp only at r1 r2
    subst r1
    have fM : M.fitSolver I states lhs inputs = (X.ws (some s'), a) := by
      simp only [Model.fitSolver, hM, kM1, hd, hfs]
      rfl
    have fN : N.fitSolver I states lhs inputs = (Y.ws (some t'), a) := by
      simp only [Model.fitSolver, hN, kN, hft]
      rfl
    rw [fM, fN]
    refine ⟨rfl, fun hok => ⟨?_, kM.2.1⟩⟩
    simp only at hok
    subst hok
    rw [hX]
    exact ⟨rfl, fun _ => rfl, rfl, rfl, rfl, rfl, by simp [Model.ws, r2 rfl]⟩

/-- The solver of the model has learned from the data what `s1` has. -/
def BRom.Learned (cfg : S → C) (s1 : S) (A : BRom K S G) : Prop := ∃ t, A.model.solver = some t ∧ cfg t = cfg s1

theorem learned_invariant [Field K] (L : NormalLib K G) (B : BayesI K S) {setReg : S → Point K → S × Except Err Unit}
    {cfg : S → C} (hO : Overwrites setReg cfg) (n : Nat) (tests : List (RegCase K (Model K S))) (trains : List (BayesCase K S))
    (s1 : S) (p : Point K) (A : BRom K S G) (hA : A.Learned cfg s1) :
    (BRom.trainingError L B setReg n tests trains p A).1.Learned cfg s1 := by
  let Inv : BRom K S G → Prop := fun A => A.Learned cfg s1
  have draw_inv : ∀ A : BRom K S G, Inv A → Inv (A.drawOperators L).1 := by
    rintro A ⟨t, ht, hc⟩
    refine ⟨t, ?_, hc⟩
    unfold BRom.drawOperators
    cases A.posterior with
    | none => exact ht
    | some P =>
      simp only
      rcases P.rvs L A.gen with ⟨g, x⟩
      cases x with
      | error e => exact ht
      | ok out =>
        cases out <;> exact ht
  have td_inv : ∀ (c : RegCase K (Model K S)) (n : Nat) (A : BRom K S G), Inv A → Inv (A.testDraws L c n).1 := by
    intro c n
    induction n with
    | zero => intro A hA; exact hA
    | succ n ih =>
      intro A hA
      have := draw_inv A hA
      simp only [BRom.testDraws]
      rcases hd : A.drawOperators L with ⟨A', x⟩
      rw [hd] at this
      cases x with
      | error e => exact this
      | ok _ =>
        simp only
        cases c.predict A'.model with
        | error e => exact this
        | ok Q =>
          simp only
          split
          · exact this
          · exact ih A' this
  have tl_inv : ∀ (cs : List (RegCase K (Model K S))) (A : BRom K S G), Inv A → Inv (A.testLoop L n cs).1 := by
    intro cs
    induction cs with
    | nil => intro A hA; exact hA
    | cons c cs ih =>
      intro A hA
      have := td_inv c n A hA
      simp only [BRom.testLoop]
      rcases hd : A.testDraws L c n with ⟨A', x⟩
      rw [hd] at this
      rcases x with e | b
      · exact this
      · cases b with
        | false => exact this
        | true => exact ih A' this
  have rd_inv : ∀ (c : BayesCase K S) (n : Nat) (ds : List (Traj K)) (A : BRom K S G), Inv A →
      Inv (A.trainDraws L c n ds).1 := by
    intro c n
    induction n with
    | zero => intro ds A hA; exact hA
    | succ n ih =>
      intro ds A hA
      have := draw_inv A hA
      simp only [BRom.trainDraws]
      rcases hd : A.drawOperators L with ⟨A', x⟩
      rw [hd] at this
      cases x with
      | error e => exact this
      | ok _ =>
        simp only
        cases c.predict A'.model with
        | error e => exact this
        | ok Q =>
          simp only
          rcases c.unstable Q with e | b
          · exact this
          · cases b with
            | true => exact this
            | false => exact ih _ A' this
  have rl_inv : ∀ (cs : List (BayesCase K S)) (v : Val K) (A : BRom K S G), Inv A → Inv (A.trainLoop L n v cs).1 := by
    intro cs
    induction cs with
    | nil => intro v A hA; exact hA
    | cons c cs ih =>
      intro v A hA
      have := rd_inv c n [] A hA
      simp only [BRom.trainLoop]
      rcases hd : A.trainDraws L c n [] with ⟨A', x⟩
      rw [hd] at this
      rcases x with e | b
      · exact this
      · cases b with
        | none => exact this
        | some ds =>
          simp only
          cases c.error ds with
          | error e => exact this
          | ok e => exact ih _ A' this
  have ev_inv : ∀ A : BRom K S G, Inv A → Inv (A.evaluate L n tests trains).1 := by
    intro A hA
    have := tl_inv tests A hA
    simp only [BRom.evaluate]
    rcases hd : A.testLoop L n tests with ⟨A', x⟩
    rw [hd] at this
    rcases x with e | b
    · exact this
    · cases b with
      | false => exact this
      | true =>
        have := rl_inv trains (.num 0) A' this
        simp only
        rcases hd : A'.trainLoop L n (.num 0) trains with ⟨A'', x⟩
        rw [hd] at this
        rcases x with e | b
        · exact this
        · cases b <;> exact this
  have up_inv : ∀ (p : Point K) (A : BRom K S G), Inv A → Inv (A.update L B setReg p).1 := by
    rintro p A ⟨t, ht, hc⟩
    obtain ⟨-, u2, -⟩ := update_spec L B hO A p t ht
    exact ⟨(setReg t p).1, by rw [u2], (hO.keep t p).trans hc⟩
  have hI : ∀ p A, Inv A → Inv (BRom.trainingError L B setReg n tests trains p A).1 := by
    intro p A hA
    have := up_inv p A hA
    simp only [BRom.trainingError]
    rcases hd : A.update L B setReg p with ⟨A', x⟩
    rw [hd] at this
    cases x with
    | error e => exact this
    | ok _ =>
      simp only
      cases A'.posterior with
      | none => exact this
      | some P => exact ev_inv A' this
  exact hI p A hA

section select

variable [Field K] [LinearOrder K] (L : NormalLib K G) (I : SolverI K S) (B : BayesI K S)
  {setReg : S → Point K → S × Except Err Unit} {cfg : S → C} (Sr : Search K)

/-- **C65.** If the selection of a Bayesian model completes, there is a posterior, and it is the posterior of the
solver, handed the given data after having been reset, with the selected regularization; that solver is the solver of
the model afterwards. -/
theorem C65_selected (hO : Overwrites setReg cfg) (ho : ∀ st, (Sr.optimiser st).Honest []) (n : Nat)
    (cases : Except Err (List (RegCase K (Model K S)) × List (BayesCase K S))) (c : Cands K) (only : Bool) (R R' : BRom K S G)
    (states lhs : Arg K) (inputs : Option (Arg K)) (s : S) (hs : R.model.solver = some s)
    (h : R.regselect L I B setReg Sr n cases c only states lhs inputs = (R', .ok ())) :
    ∃ (M : Model K S) (s1 s2 : S) (w : Point K) (P : Posterior K),
      Model.fitSolver I { R.model with solver := some (B.reset s) } states lhs inputs = (M, .ok ()) ∧
      M.solver = some s1 ∧ setReg s1 w = (s2, .ok ()) ∧ R'.model.solver = some s2 ∧
      solverPosterior L B s2 = .ok P ∧ R'.posterior = some P := by
  unfold BRom.regselect BRom.select at h
  rw [hs] at h
  simp only [Option.map_some] at h
  rcases hf : Model.fitSolver I { R.model with solver := some (B.reset s) } states lhs inputs with ⟨M, x⟩
  rw [hf] at h
  cases x with
  | error e => simp at h
  | ok _ =>
    cases cases with
    | error e => simp at h
    | ok tt =>
      obtain ⟨tests, trains⟩ := tt
      simp only at h
      obtain ⟨X, Q, Z, U, s0, s1, -, -, -, rfl⟩ := fitSolver_ok hf
      have hI := learned_invariant L B hO n tests trains s1 (G := G)
      rcases hg : gridsearch Sr.pow10 Sr.big Sr.optimiser (BRom.trainingError L B setReg n tests trains) c only
        ({ R with model := X.ws (some s1) } : BRom K S G) with ⟨R2, y⟩
      rw [hg] at h
      cases y with
      | error e => simp at h
      | ok w =>
        simp only at h
        obtain ⟨⟨t2, ht2, hc2⟩, v, ⟨A, ⟨t, ht, hct⟩, hv⟩, hlt⟩ := gridsearch_visited hI Sr.pow10 Sr.big Sr.optimiser ho c only _ _ w
          ⟨s1, rfl, rfl⟩ hg
        obtain ⟨-, a2, a3, a4⟩ := update_spec L B hO A w t ht
        obtain ⟨-, b2, b3, b4⟩ := update_spec L B hO R2 w t2 ht2
        -- the posterior existed when `w` was tried
        have hpost : (A.update L B setReg w).2 = .ok () ∧ ∃ P, (A.update L B setReg w).1.posterior = some P := by
          simp only [BRom.trainingError] at hv
          rcases hd : A.update L B setReg w with ⟨A', x⟩
          rw [hd] at hv
          cases x with
          | error e => simp at hv
          | ok _ =>
            refine ⟨rfl, ?_⟩
            simp only at hv
            cases hP : A'.posterior with
            | some P => exact ⟨P, rfl⟩
            | none =>
              rw [hP] at hv
              simp only [Except.ok.injEq] at hv
              subst hv
              simp [Val.lt] at hlt
        obtain ⟨hok, P, hP⟩ := hpost
        rw [a4 hok] at hP
        have hreg : (setReg t w).2 = .ok () := by
          rw [a3] at hok
          cases hr : (setReg t w).2 with
          | error e => rw [hr] at hok; simp at hok
          | ok _ => rfl
        obtain ⟨o1, o2⟩ := hO.same t s1 w hct
        obtain ⟨q1, q2⟩ := hO.same t t2 w (hct.trans hc2.symm)
        have hposterior : solverPosterior L B (setReg s1 w).1 = .ok P := by
          rw [← o2 hreg]
          cases hsp : solverPosterior L B (setReg t w).1 with
          | error e => rw [hsp] at hP; simp [Except.toOption] at hP
          | ok P' => rw [hsp] at hP; simp only [Except.toOption, Option.some.injEq] at hP; rw [hP]
        refine ⟨_, s1, (setReg s1 w).1, w, P, rfl, rfl, ?_, ?_, hposterior, ?_⟩
        · rw [← hreg, o1]
        · have := congrArg (fun z => z.1.model.solver) h
          simp only at this
          rw [← this, b2, ← o2 hreg, q2 hreg]
        · have h1 := congrArg (fun z => z.1.posterior) h
          have h2 := congrArg Prod.snd h
          simp only at h1 h2
          rw [← h1, b4 h2, ← q2 hreg, o2 hreg, hposterior]
          rfl

/-- **C65.** In contrast to other models an exception for a single candidate ends the selection: if the regularization
is rejected, or the posterior raises anything but `LinAlgError` (for example `RuntimeError` because the regression is
perfect), the selection raises. -/
theorem C65_candidate_raises (hO : Overwrites setReg cfg) (n : Nat)
    (tests : List (RegCase K (Model K S))) (trains : List (BayesCase K S)) (c : Cands K) (only : Bool) (R : BRom K S G)
    (states lhs : Arg K) (inputs : Option (Arg K)) (s : S) (hs : R.model.solver = some s) (M : Model K S) (s1 : S)
    (hf : Model.fitSolver I { R.model with solver := some (B.reset s) } states lhs inputs = (M, .ok ()))
    (hs1 : M.solver = some s1) (g : Grid K) (hg : c.process = .ok g) (p : Point K) (hp : p ∈ g.points)
    (hbad : (setReg s1 p).2 ≠ .ok () ∨
      ∃ e, e ≠ .linalg ∧ (setReg s1 p).2 = .ok () ∧ solverPosterior L B (setReg s1 p).1 = .error e) :
    ∃ e, (R.regselect L I B setReg Sr n (.ok (tests, trains)) c only states lhs inputs).2 = .error e := by
  unfold BRom.regselect BRom.select
  rw [hs]
  simp only [Option.map_some]
  rw [hf]
  simp only
  rcases hgs : gridsearch Sr.pow10 Sr.big Sr.optimiser (BRom.trainingError L B setReg n tests trains) c only
    ({ R with model := M } : BRom K S G) with ⟨R2, y⟩
  cases y with
  | error e => exact ⟨e, rfl⟩
  | ok w =>
    exfalso
    obtain ⟨v, A, ⟨t, ht, hct⟩, hv⟩ := gridsearch_all (learned_invariant L B hO n tests trains s1) Sr.pow10 Sr.big
      Sr.optimiser c only _ _ w ⟨s1, hs1, rfl⟩ hgs g hg p hp
    obtain ⟨-, -, a3, -⟩ := update_spec L B hO A p t ht
    obtain ⟨o1, o2⟩ := hO.same t s1 p hct
    have hok : (A.update L B setReg p).2 = .ok () := by
      simp only [BRom.trainingError] at hv
      rcases hd : A.update L B setReg p with ⟨A', x⟩
      rw [hd] at hv
      cases x with
      | error e => simp at hv
      | ok _ => rfl
    rw [a3] at hok
    rcases hbad with hbad | ⟨e, he, h1, h2⟩
    · rw [← o1] at hbad
      cases hr : (setReg t p).2 with
      | error e => rw [hr] at hok; simp at hok
      | ok _ => exact hbad hr
    · rw [← o1] at h1
      rw [← o2 h1] at h2
      rw [h1] at hok
      simp only [h2] at hok
      cases e <;> simp at hok he

/-- **C65.** Two Bayesian models with the same operators, whatever was learned before, and with the same random numbers:
since the solver is reset, the selection has the same outcome, and the same posterior, solver and random state result. -/
theorem C65_forgets (hO : Overwrites setReg cfg) (n : Nat)
    (cases : Except Err (List (RegCase K (Model K S)) × List (BayesCase K S))) (c : Cands K) (only : Bool) (X Y : BRom K S G)
    (hgen : X.gen = Y.gen) (hXY : X.model.Sim Y.model) (hint : X.model.intrusive = false) (s t : S)
    (hs : X.model.solver = some s) (ht : Y.model.solver = some t) (hR : RefitsAt I cfg (B.reset s) (B.reset t))
    (states lhs : Arg K) (inputs : Option (Arg K)) :
    let run := fun R : BRom K S G => R.regselect L I B setReg Sr n cases c only states lhs inputs
    (run X).2 = (run Y).2 ∧
    ((run X).2 = .ok () → (run X).1.posterior = (run Y).1.posterior ∧ (run X).1.gen = (run Y).1.gen ∧
      (run X).1.model.solver = (run Y).1.model.solver ∧ (run X).1.model.Alike cfg (run Y).1.model) := by
  intro run
  simp only [run]
  obtain ⟨f1, f2⟩ := fitSolver_alike I (cfg := cfg) (M := { X.model with solver := some (B.reset s) })
    (N := { Y.model with solver := some (B.reset t) }) ⟨hXY.slots, hXY.inputs, hXY.intrusive⟩ (B.reset s) (B.reset t)
    rfl rfl hR states lhs inputs
  unfold BRom.regselect BRom.select
  rw [hs, ht]
  simp only [Option.map_some]
  rcases hM : Model.fitSolver I { X.model with solver := some (B.reset s) } states lhs inputs with ⟨M1, x⟩
  rcases hN : Model.fitSolver I { Y.model with solver := some (B.reset t) } states lhs inputs with ⟨N1, y⟩
  rw [hM, hN] at f1 f2
  simp only at f1 f2
  subst f1
  cases x with
  | error e => simp
  | ok _ =>
    obtain ⟨f2, f3⟩ := f2 rfl
    cases cases with
    | error e => simp
    | ok tt =>
      obtain ⟨tests, trains⟩ := tt
      simp only
      have hnear : BRom.Near cfg ({ X with model := M1 } : BRom K S G) ({ Y with model := N1 } : BRom K S G) :=
        ⟨hgen, f2, f3.trans hint⟩
      obtain ⟨g1, g2⟩ := gridsearch_bisim (trainingError_bisim L B hO n tests trains) Sr.pow10 Sr.big Sr.optimiser c only
        _ _ hnear
      rcases h1 : gridsearch Sr.pow10 Sr.big Sr.optimiser (BRom.trainingError L B setReg n tests trains) c only
        ({ X with model := M1 } : BRom K S G) with ⟨A, u⟩
      rcases h2 : gridsearch Sr.pow10 Sr.big Sr.optimiser (BRom.trainingError L B setReg n tests trains) c only
        ({ Y with model := N1 } : BRom K S G) with ⟨A', u'⟩
      rw [h1, h2] at g1 g2
      simp only at g1 g2
      subst g1
      cases u with
      | error e => simp
      | ok w =>
        obtain ⟨e1, -, e3⟩ := update_near L B hO g2 w
        refine ⟨e1, fun hok => ?_⟩
        have := e3 hok
        exact ⟨this.posterior, this.near.gen, this.solver, this.near.model⟩

end select

/-! ### The built-in solvers -/

/-- An `L2Solver` as the solver of a Bayesian model. -/
def l2Bayes [Field K] [LinearOrder K] (eps : K) : BayesI K (L2 K K) := ⟨fun s => s.posterior eps, L2.reset⟩

/-- An `L2DecoupledSolver` as the solver of a Bayesian model. -/
def l2DecBayes [Field K] [LinearOrder K] (eps : K) : BayesI K (L2 (List K) K) := ⟨fun s => s.posteriorDec eps, L2.reset⟩

/-- A `TikhonovSolver` as the solver of a Bayesian model. -/
def tikBayes [Field K] [LinearOrder K] (eps : K) (lstsq posSolve : Mat K → Mat K → Except Err (Mat K)) :
    BayesI K (Tik (Mat K) K) := ⟨fun s => s.posterior eps lstsq posSolve, Tik.reset⟩

/-- **C65** for the solvers that may be used: their `reset` makes the second selection independent of the first, in
contrast to C50. -/
theorem C65_solvers [Field K] [LinearOrder K] (svd : Mat K → Except Err (Svd K))
    (lstsq posSolve : Mat K → Mat K → Except Err (Mat K)) (eps : K) :
    (∀ s t, RefitsAt (l2Solver svd) (fun s : L2 K K => (s.data, s.pre)) ((l2Bayes eps).reset s) ((l2Bayes eps).reset t)) ∧
    (∀ s t, RefitsAt (l2DecSolver svd) (fun s : L2 (List K) K => (s.data, s.pre)) ((l2DecBayes eps).reset s)
      ((l2DecBayes eps).reset t)) ∧
    (∀ s t, s.method = t.method → RefitsAt (tikSolver lstsq posSolve) (fun s : Tik (Mat K) K => (s.method, s.data, s.pre))
      ((tikBayes eps lstsq posSolve).reset s) ((tikBayes eps lstsq posSolve).reset t)) :=
  ⟨fun _ _ => l2_refits svd _ _, fun _ _ => l2Dec_refits svd _ _ rfl rfl,
    fun _ _ h => tik_refits lstsq posSolve _ _ rfl rfl h⟩

/-! ### Examples -/

namespace BayesSelEx

open RegEx

/-- Draws are the means. -/
def meanLib : NormalLib ℚ Nat where
  invert P := .ok P
  admits _ := .ok ()
  sample mu _ g := (mu, g + 1)

def bayes : BayesI ℚ (Tik (Mat ℚ) ℚ) := tikBayes (1 / 1000) (fun _ _ => .error .linalg) diagSolve

def start : BRom ℚ (Tik (Mat ℚ) ℚ) Nat := ⟨fresh, none, 0⟩

def bcall1 (cands : List ℚ) (R : BRom ℚ (Tik (Mat ℚ) ℚ) Nat) :=
  R.regselect meanLib tik bayes (tikSetReg (factory 1)) search 2
    (.ok ([discreteTest [1] 4 .none (some 2)], [bayesDiscreteCase root 1 (.num (5 / 2)) [[4], [3]] 1 .none]))
    (.nums cands) true (.mat 1 [[4], [3]]) (.mat 1 [[3], [9 / 4]]) none

def bcall2 (R : BRom ℚ (Tik (Mat ℚ) ℚ) Nat) :=
  R.regselect meanLib tik bayes (tikSetReg (factory 2)) search 1
    (.ok ([], [bayesDiscreteCase root 2 (.num 10) [[4, 0], [0, 3]] 1 .none]))
    (.nums [1]) true (.mat 2 [[4, 0], [0, 3]]) (.mat 2 [[0, 3], [4, 0]]) none

/-- The selection succeeds; the second one, with another number of variables, succeeds on a fresh object and on the one
used before (compare `C50_second_call_witness`); a rejected candidate and a perfect regression end it. -/
theorem C65_witness : (bcall1 [3, 1, 2] start).2 = .ok () ∧
    ((bcall1 [3, 1, 2] start).1.posterior.map Posterior.means) = some [[75 / 104]] ∧
    (bcall2 start).2 = .ok () ∧ (bcall2 (bcall1 [3, 1, 2] start).1).2 = .ok () ∧
    (bcall2 ⟨(bcall1 [3, 1, 2] start).1.model, none, 0⟩).1.posterior = (bcall2 start).1.posterior ∧
    (bcall1 [-1, 1] start).2 = .error .value ∧ (bcall1 [1, 0] start).2 = .error .runtime := by
  refine ⟨?_, ?_, ?_, ?_, ?_, ?_, ?_⟩ <;> decide +kernel

end BayesSelEx

end Opinf
