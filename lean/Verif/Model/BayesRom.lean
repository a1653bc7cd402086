import Verif.Model.Bayes
import Verif.Model.RomSelect

/-!
# Bayesian reduced-order models

Model of `BayesianROM` from the training data in the original state space on: /repo/src/opinf/roms/_bayes.py:197-223,
239-536, 539-871. The posterior and the selection on processed data are in `Verif/Model/Bayes.lean`, processing the
training data is in `Verif/Model/RomFit.lean`; what is said there about arguments that are not modelled applies here as
well. `predict_options`, `verbose` and warnings are not modelled.
-/

namespace Opinf

open List

variable {K T B S G : Type}

/-! ### The constructor -/

/-- The classes of solvers: /repo/src/opinf/lstsq/. -/
inductive SolverClass
  | plain | l2 | l2Decoupled | tikhonov | tikhonovDecoupled | truncatedSVD | totalLeastSquares | other
  deriving DecidableEq

/-- What `_validate_model_solver` looks at: whether the model is interpolatory, and the class of its solver; `none` if it
has no attribute `solver`. Without a solver the attribute is `None`, which is of another class. -/
structure ModelTraits where
  interpolatory : Bool
  solver : Option SolverClass

/-- `VALID_SOLVERS`: _bayes.py:21-26. -/
def validSolvers : List SolverClass := [.l2, .l2Decoupled, .tikhonov, .tikhonovDecoupled]

/-- `_validate_model_solver(model)`: _bayes.py:204-218. -/
def validateModelSolver (M : ModelTraits) : Except Err Unit :=
  if M.interpolatory then .error .attribute
  else match M.solver with
    | none => .error .attribute
    | some c => if c ∈ validSolvers then .ok () else .error .attribute

/-- A `BayesianROM`: _bayes.py:197-223, 539-618; with the state of the random numbers. -/
structure BFRom (K T B S G : Type) where
  base : FRom K T B S
  posterior : Option (Posterior K)
  gen : G

/-- `BayesianROM(model, lifter=.., transformer=.., basis=.., ddt_estimator=..)`: _bayes.py:200-202, 601-618. The arguments have been
accepted by `ROM.__init__`. -/
def BFRom.make (traits : ModelTraits) (rom : Rom K T B) (ddt : Option (DdtI K)) (model : Model K S) (g : G) :
    Except Err (BFRom K T B S G) :=
  match validateModelSolver traits with
  | .error e => .error e
  | .ok () => .ok ⟨FRom.make rom ddt model, none, g⟩

/-- The model and the posterior. -/
def BFRom.core (R : BFRom K T B S G) : BRom K S G := ⟨R.base.model, R.posterior, R.gen⟩

/-- The same object with another model, posterior and state of the random numbers. -/
def BFRom.withCore (F : FRom K T B S) (C : BRom K S G) : BFRom K T B S G := ⟨{ F with model := C.model }, C.posterior, C.gen⟩

/-! ### Training and prediction -/

/-- `fit(states, lhs, inputs, fit_transformer, fit_basis)`: _bayes.py:620-637. -/
def BFRom.fit [CommRing K] (L : NormalLib K G) (I : SolverI K S) (Y : BayesI K S) (R : BFRom K T B S G)
    (states : TrainArg K) (lhs inputs : Option (TrainArg K)) (fitT fitB : Bool) : BFRom K T B S G × Except Err Unit :=
  match R.base.fit I states lhs inputs fitT fitB with
  | (F, .error e) => ({ R with base := F }, .error e)
  | (F, .ok ()) => (BFRom.withCore F (BRom.initPosterior L Y ⟨F.model, R.posterior, R.gen⟩).1,
      (BRom.initPosterior L Y ⟨F.model, R.posterior, R.gen⟩).2)

/-- `draw_operators()`: _bayes.py:233-237. -/
def BFRom.drawOperators [AddMonoid K] (L : NormalLib K G) (R : BFRom K T B S G) : BFRom K T B S G × Except Err Unit :=
  (BFRom.withCore R.base (R.core.drawOperators L).1, (R.core.drawOperators L).2)

/-- `predict(state0, ..)`: _bayes.py:850-871; `f` is `ROM.predict` with the given arguments. -/
def BFRom.predict [AddMonoid K] {α : Type} (L : NormalLib K G) (f : FRom K T B S → Except Err α) (R : BFRom K T B S G) :
    BFRom K T B S G × Except Err α :=
  match R.drawOperators L with
  | (R, .error e) => (R, .error e)
  | (R, .ok ()) => (R, f R.base)

/-! ### Selecting the regularization -/

/-- `self.model.solver.reset()`: _bayes.py:296-297, 448-449. -/
def BFRom.reset (Y : BayesI K S) (R : BFRom K T B S G) : BFRom K T B S G :=
  { R with base := { R.base with model := { R.base.model with solver := R.base.model.solver.map Y.reset } } }

/-- From `_fit_model(.., solver_only=True)` on: _bayes.py:298-398, 450-536; `cases` are the test cases and training
trajectories, made after the reduced-order model is calibrated. -/
def BFRom.afterReset [Field K] [LinearOrder K] (L : NormalLib K G) (I : SolverI K S) (Y : BayesI K S)
    (setReg : S → Point K → S × Except Err Unit) (Sr : Search K) (draws : Nat)
    (cases : Rom K T B → TrainData K → Except Err (List (RegCase K (Model K S)) × List (BayesCase K S)))
    (cands : Cands K) (only : Bool) (R : BFRom K T B S G) (states : List (Snap K)) (lhs inputs : Option (List (Snap K)))
    (fitT fitB : Bool) : BFRom K T B S G × Except Err Unit :=
  match R.base.checkFitArgs lhs.isNone inputs.isNone with
  | .error e => (R, .error e)
  | .ok () => match R.base.process states lhs inputs fitT fitB with
    | (F, .error e) => ({ R with base := F }, .error e)
    | (F, .ok d) => match d.stacked with
      | .error e => ({ R with base := F }, .error e)
      | .ok (Q, Z, U) =>
        (BFRom.withCore F (BRom.select L I Y setReg Sr draws (cases F.rom d) cands only ⟨F.model, R.posterior, R.gen⟩
            Q.toArg Z.toArg (U.map Snap.toArg)).1,
          (BRom.select L I Y setReg Sr draws (cases F.rom d) cands only ⟨F.model, R.posterior, R.gen⟩
            Q.toArg Z.toArg (U.map Snap.toArg)).2)

/-- One training trajectory of a fully discrete model, given by its reduced states: _bayes.py:460-481, 506-524. -/
def bayesDiscTrain [Field K] [LinearOrder K] (sqrt : K → K) (margin : K) (numTest : Nat) (Y : Snap K) (U : PredInput K) :
    Except Err (BayesCase K S) :=
  match Y with
  | .vec _ => .error .value
  | .mat k rows => (stabilityLimit rows.length margin (transpose k rows)).map fun L =>
      bayesDiscreteCase sqrt rows.length L (transpose k rows) numTest U

/-- The limits come first, then the test cases: _bayes.py:460-481. -/
def bayesDiscCases [Field K] [LinearOrder K] (sqrt : K → K) (margin : K) (numTest : Nat) (tests : List (DiscTest K))
    (us : Option (List (Snap K))) (R : Rom K T B) (d : TrainData K) :
    Except Err (List (RegCase K (Model K S)) × List (BayesCase K S)) :=
  match (zip d.states (predInputs d.states.length us)).mapM fun x => bayesDiscTrain sqrt margin numTest x.1 x.2 with
  | .error e => .error e
  | .ok trains => (R.discTests tests).map fun tests => (tests, trains)

/-- `fit_regselect_discrete(candidates, states, inputs, ..)`: _bayes.py:400-536. In contrast to `ROM` there is no check
whether the solver has a regularizer. -/
def BFRom.selectDiscrete [Field K] [LinearOrder K] (L : NormalLib K G) (I : SolverI K S) (Y : BayesI K S)
    (setReg : S → Point K → S × Except Err Unit) (Sr : Search K) (draws : Nat) (sqrt : K → K) (cands : Cands K)
    (R : BFRom K T B S G) (states : TrainArg K) (inputs : Option (TrainArg K)) (fitT fitB only : Bool) (numTest : Int)
    (margin : K) (tests : List (DiscTest K)) : BFRom K T B S G × Except Err Unit :=
  if R.base.rom.continuous then (R, .error .attribute)
  else match fixLists states none inputs with
    | .error e => (R, .error e)
    | .ok (qs, _, us) => if numTest < 0 then (R, .error .value)
      else match checkSelInputs qs numTest.toNat us with
        | .error e => (R, .error e)
        | .ok () => (R.reset Y).afterReset L I Y setReg Sr draws (bayesDiscCases sqrt margin numTest.toNat tests us) cands
            only qs none us fitT fitB

/-- `Lp_error(Q, np.mean(draws, axis=0), t[:trainsize])[1]`: _bayes.py:371-387. If a draw has NaN or infinite entries
over the training horizon, so has the error. The mean of no draws is a NaN, on which the error measure raises
`ValueError`. -/
def bayesContError [Field K] [LinearOrder K] (p2 : PNorm K) (r : Nat) (Q : List (List K)) (t : List K)
    (draws : List (Traj K)) : Except Err (Val K) :=
  if draws.isEmpty then .error .value
  else if draws.any (fun sol => (sol.take Q.length).any fun c => c.any fun x => decide (x = .nan)) then .ok .nan
  else if draws.any (fun sol => (sol.take Q.length).any fun c => c.any fun x => !x.isFinite) then .ok .inf
  else (LpError (.fin p2) (.times (t.take Q.length)) (.mat r Q)
    (.mat r (meanDraws (draws.map fun sol => Traj.nums (sol.take Q.length))))).map Prod.snd

/-- One training trajectory of a time-continuous model: _bayes.py:315-319, 364-387. -/
def bayesContTrain [Field K] [LinearOrder K] (sim : Integrator K S) (p2 : PNorm K) (Q : Snap K) (L : Val K)
    (u : Option (K → List K)) (t : List K) : BayesCase K S where
  predict M := sim M (Q.colsOf.2.headD []) t u
  unstable := unstableCont (meanCol Q.colsOf.1 Q.colsOf.2) L t.length
  error := bayesContError p2 Q.colsOf.1 Q.colsOf.2 t

/-- The stability limits, the test cases, the extended time domains: _bayes.py:308-339. -/
def bayesContCases [Field K] [LinearOrder K] [FloorRing K] (sim : Integrator K S) (p2 : PNorm K) (margin testTime : K)
    (tests : List (ContTest K)) (qs : List (Snap K)) (us : Option (List (K → List K))) (ts : List (List K))
    (R : Rom K T B) (_ : TrainData K) : Except Err (List (RegCase K (Model K S)) × List (BayesCase K S)) :=
  match qs.mapM R.encode1 with
  | .error e => .error e
  | .ok es => match es.mapM (snapLimit margin) with
    | .error e => .error e
    | .ok Ls => match R.contTests sim tests with
      | .error e => .error e
      | .ok tests => match ts.mapM (extendTimes testTime) with
        | .error e => .error e
        | .ok ts => .ok (tests, (zip (zip es Ls) (zip (us.elim (replicate es.length none) (·.map some)) ts)).map
            fun x => bayesContTrain sim p2 x.1.1 x.1.2 x.2.1 x.2.2)

/-- `fit_regselect_continuous(candidates, train_time_domains, states, ddts, input_functions, ..)`: _bayes.py:239-398. -/
def BFRom.selectContinuous [Field K] [LinearOrder K] [FloorRing K] (L : NormalLib K G) (I : SolverI K S) (Y : BayesI K S)
    (setReg : S → Point K → S × Except Err Unit) (Sr : Search K) (draws : Nat) (sim : Integrator K S) (p2 : PNorm K)
    (cands : Cands K) (times : OneOrMany (List K)) (R : BFRom K T B S G) (states : TrainArg K)
    (ddts : Option (TrainArg K)) (inputs : Option (OneOrMany (K → List K))) (fitT fitB only : Bool)
    (testTime margin : K) (tests : List (ContTest K)) : BFRom K T B S G × Except Err Unit :=
  if !R.base.rom.continuous then (R, .error .attribute)
  else match fixContArgs times states ddts inputs testTime with
    | .error e => (R, .error e)
    | .ok (qs, zs, ts, us, U) =>
      (R.reset Y).afterReset L I Y setReg Sr draws (bayesContCases sim p2 margin testTime tests qs us ts) cands only qs zs
        U fitT fitB

end Opinf
