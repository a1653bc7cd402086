import Verif.Props.BayesSelect
import Verif.Props.Post

/-!
# C65: training Bayesian models without selection, and the error of the mean of the draws
-/

namespace Opinf

open List

variable {K S G : Type}

/-- **C65, `fit`.** What `fit` of a Bayesian model does, in all cases: it trains the model as usual; if that fails, the
posterior stays as it was. Otherwise the posterior is that of the fitted solver; if computing it raises `LinAlgError`
there is none afterwards (in particular not the one of an earlier training), without an error; any other exception is
passed on. -/
theorem C65_fit [CommRing K] (L : NormalLib K G) (I : SolverI K S) (B : BayesI K S) (R : BRom K S G)
    (states lhs : Arg K) (inputs : Option (Arg K)) :
    (R.fit L I B states lhs inputs).1.model = (R.model.fit I states lhs inputs).1 ∧
    (R.fit L I B states lhs inputs).1.gen = R.gen ∧
    (∀ e, (R.model.fit I states lhs inputs).2 = .error e →
      (R.fit L I B states lhs inputs).2 = .error e ∧ (R.fit L I B states lhs inputs).1.posterior = R.posterior) ∧
    ∀ s, (R.model.fit I states lhs inputs).2 = .ok () → (R.model.fit I states lhs inputs).1.solver = some s →
      (∀ P, solverPosterior L B s = .ok P →
        (R.fit L I B states lhs inputs).2 = .ok () ∧ (R.fit L I B states lhs inputs).1.posterior = some P) ∧
      (solverPosterior L B s = .error .linalg →
        (R.fit L I B states lhs inputs).2 = .ok () ∧ (R.fit L I B states lhs inputs).1.posterior = none) ∧
      ∀ e, e ≠ .linalg → solverPosterior L B s = .error e → (R.fit L I B states lhs inputs).2 = .error e := by
  rcases hM : R.model.fit I states lhs inputs with ⟨M, x⟩
  cases x with
  | error e =>
    simp [BRom.fit, hM]
  | ok _ =>
    simp only [BRom.fit, hM, BRom.initPosterior]
    cases hs : M.solver with
    | none => simp
    | some s =>
      simp only
      cases hp : solverPosterior L B s with
      | ok P => simp [hp]
      | error e => cases e <;> simp [hp, eq_comm]

/-- **C65, drawing after a failed posterior.** After a training whose posterior raised `LinAlgError`, drawing operators
and predicting raise `AttributeError`. -/
theorem C65_fit_no_posterior [Field K] (L : NormalLib K G) (I : SolverI K S) (B : BayesI K S) (R : BRom K S G)
    (states lhs : Arg K) (inputs : Option (Arg K)) (s : S) (h : (R.model.fit I states lhs inputs).2 = .ok ())
    (hs : (R.model.fit I states lhs inputs).1.solver = some s) (hp : solverPosterior L B s = .error .linalg) :
    ((R.fit L I B states lhs inputs).1.drawOperators L).2 = .error .attribute ∧
    ∀ (α : Type) (f : Model K S → Except Err α), ((R.fit L I B states lhs inputs).1.predict L f).2 = .error .attribute := by
  obtain ⟨-, -, -, h4⟩ := C65_fit L I B R states lhs inputs
  obtain ⟨-, h5⟩ := (h4 s h hs).2.1 hp
  refine ⟨by rw [BRom.drawOperators, h5], fun α f => by rw [BRom.predict, BRom.drawOperators, h5]⟩

/-! ### The mean of the draws -/

theorem getD_zipWith_vadd [AddMonoid K] (A B : List (List K)) (j : Nat) (h : A.length = B.length) :
    (zipWith vadd A B).getD j [] = vadd (A.getD j []) (B.getD j []) := by
  by_cases hj : j < A.length
  · rw [getD_eq_getElem _ _ (by simp; omega), getD_eq_getElem _ _ hj, getD_eq_getElem _ _ (by omega),
      getElem_zipWith]
  · have e : ∀ X : List (List K), X.length ≤ j → X.getD j [] = [] := fun X hX => by
      rw [getD_eq_getElem?_getD, getElem?_eq_none hX]; rfl
    rw [e _ (by simp; omega), e A (by omega), e B (by omega)]
    rfl

theorem foldl_entry [Field K] (n k : Nat) : ∀ (ds : List (List (List K))) (d : List (List K)), IsData n k d →
    (∀ e ∈ ds, IsData n k e) → IsData n k (ds.foldl (zipWith vadd) d) ∧ ∀ j i,
      ((ds.foldl (zipWith vadd) d).getD j []).getD i 0
        = (d.getD j []).getD i 0 + (ds.map fun e => (e.getD j []).getD i 0).sum := by
  intro ds
  induction ds with
  | nil => intro d hd _; exact ⟨hd, fun j i => by simp⟩
  | cons e ds ih =>
    intro d hd hds
    have he := hds e mem_cons_self
    have h1 : IsData n k (zipWith vadd d e) := by
      refine ⟨by simp [hd.width, he.width], ?_⟩
      intro c hc
      rw [← map_uncurry_zip_eq_zipWith] at hc
      obtain ⟨⟨a, b⟩, hab, rfl⟩ := mem_map.mp hc
      rw [Function.uncurry_apply_pair, length_vadd, hd.height a (of_mem_zip hab).1, he.height b (of_mem_zip hab).2]
      simp
    obtain ⟨i1, i2⟩ := ih (zipWith vadd d e) h1 fun x hx => hds x (mem_cons_of_mem _ hx)
    refine ⟨i1, fun j i => ?_⟩
    rw [foldl_cons, i2 j i, getD_zipWith_vadd _ _ _ (by rw [hd.width, he.width]), map_cons, sum_cons, ← add_assoc]
    congr 1
    by_cases hj : j < k
    · rw [getD_vadd]
      rw [getD_eq_getElem _ _ (by rw [hd.width]; exact hj), getD_eq_getElem _ _ (by rw [he.width]; exact hj),
        hd.height _ (getElem_mem _), he.height _ (getElem_mem _)]
    · have e0 : ∀ X : List (List K), X.length ≤ j → X.getD j [] = [] := fun X hX => by
        rw [getD_eq_getElem?_getD, getElem?_eq_none hX]; rfl
      rw [e0 d (by rw [hd.width]; omega), e0 e (by rw [he.width]; omega)]
      simp [vadd]

/-- **C65, the mean of the draws.** For one or more draws of the same shape, the array that is compared with the
training data has this shape, and each entry is the mean of the entries of the draws at this position. -/
theorem C65_mean [Field K] (n k : Nat) (draws : List (List (List K))) (hne : draws ≠ [])
    (h : ∀ d ∈ draws, IsData n k d) :
    IsData n k (meanDraws draws) ∧ ∀ j i, ((meanDraws draws).getD j []).getD i 0
      = (draws.map fun d => (d.getD j []).getD i 0).sum / (draws.length : K) := by
  cases draws with
  | nil => exact absurd rfl hne
  | cons d ds =>
    obtain ⟨h1, h2⟩ := foldl_entry n k ds d (h d mem_cons_self) fun e he => h e (mem_cons_of_mem _ he)
    refine ⟨⟨by simp [meanDraws, h1.width], ?_⟩, ?_⟩
    · intro c hc
      simp only [meanDraws] at hc
      obtain ⟨c', hc', rfl⟩ := mem_map.mp hc
      rw [length_map, h1.height c' hc']
    · intro j i
      simp only [meanDraws]
      rw [map_cons, sum_cons, ← h2 j i]
      generalize ds.foldl (zipWith vadd) d = X
      simp only [getD_eq_getElem?_getD, getElem?_map]
      cases X[j]? with
      | none => simp
      | some c =>
        simp only [Option.map_some, Option.getD_some, getElem?_map]
        cases c[i]? <;> simp

/-- **C65, the error of a candidate on one training trajectory.** For draws whose predictions are finite, of the height
of the training data and at least as long, it is the relative Frobenius error (C54) between the training data and the
mean `W` of the predictions over the training horizon. Without draws an exception is raised. -/
theorem C65_error [Field K] [LinearOrder K] (sqrt : K → K) (r : Nat)
    (limit : Val K) (Q : List (List K)) (numTest : Nat) (inputs : PredInput K) (hQ : ∀ q ∈ Q, q.length = r)
    (draws : List (List (List K))) (hd : ∀ X ∈ draws, Q.length ≤ X.length ∧ ∀ x ∈ X, x.length = r) :
    (draws = [] → (bayesDiscreteCase (S := S) sqrt r limit Q numTest inputs).error [] = .error .value) ∧
    (draws ≠ [] → ∃ W : List (List K), IsData r Q.length W ∧
      (∀ j i, j < Q.length → (W.getD j []).getD i 0
        = (draws.map fun X => (X.getD j []).getD i 0).sum / (draws.length : K)) ∧
      (bayesDiscreteCase (S := S) sqrt r limit Q numTest inputs).error (draws.map finiteTraj)
        = (frobeniusError sqrt (.mat r Q) (.mat r W)).map Prod.snd) := by
  refine ⟨fun _ => rfl, fun hne => ?_⟩
  have hn : ∀ X : List (List K), (finiteTraj X).nums = X := by
    intro X
    simp only [finiteTraj, Traj.nums, map_map]
    conv_rhs => rw [← map_id X]
    apply map_congr_left
    intro c hc
    simp [Function.comp_def]
  have hdata : ∀ d ∈ draws.map (fun X => X.take Q.length), IsData r Q.length d := by
    intro d hd'
    obtain ⟨X, hX, rfl⟩ := mem_map.mp hd'
    obtain ⟨h1, h2⟩ := hd X hX
    exact ⟨by rw [length_take]; omega, fun c hc => h2 c (mem_of_mem_take hc)⟩
  obtain ⟨h1, h2⟩ := C65_mean r Q.length (draws.map fun X => X.take Q.length) (by simpa using hne) hdata
  refine ⟨_, h1, ?_, ?_⟩
  · intro j i hj
    rw [h2 j i, map_map, length_map]
    congr 2
    apply map_congr_left
    intro X hX
    simp only [Function.comp_apply]
    rw [show (X.take Q.length).getD j [] = X.getD j [] by
      rw [getD_eq_getElem?_getD, getElem?_take, if_pos hj, ← getD_eq_getElem?_getD]]
  · simp only [bayesDiscreteCase]
    rw [if_neg (by simpa using hne), map_map]
    congr 4
    apply map_congr_left
    intro X hX
    rw [Function.comp_apply, hn]

example : meanDraws [[[1, 2], [3, 4]], [[3, 4], [5, 8]], [[2, 0], [1, 0]]] = [[2, 2], [(3 : ℚ), 4]] := by decide +kernel

end Opinf
