import Verif.Props.ParamModel
import Verif.Props.FitDiscrete

/-!
# C58: parametric discrete-time models, and the construction of parametric operators (C09, C12)
-/

namespace Opinf

open List

variable {K S : Type}

/-! ### Training parametric discrete-time models on trajectories -/

theorem getElem?_flatMap_at {α β : Type} (f : α → List β) (l : List α) (i j : Nat) (x : α) (hi : l[i]? = some x)
    (hj : j < (f x).length) :
    (l.flatMap f)[((l.take i).map fun a => (f a).length).sum + j]? = (f x)[j]? := by
  induction l generalizing i with
  | nil => simp at hi
  | cons a l ih =>
    cases i with
    | zero =>
      simp only [getElem?_cons_zero, Option.some.injEq] at hi
      subst hi
      simp only [take_zero, map_nil, sum_nil, Nat.zero_add, flatMap_cons]
      exact getElem?_append_left hj
    | succ i =>
      simp only [getElem?_cons_succ] at hi
      rw [take_succ_cons, map_cons, sum_cons, flatMap_cons, getElem?_append_right (by omega), ← ih i hi]
      congr 1
      omega

/-- The input at time `j` of the `i`-th data set, for models with inputs. -/
def inputOf (hasIn : Bool) (inputs : Option (List (Arg K))) (i j : Nat) : Option (List K) :=
  if hasIn then some ((atleast2d ((inputs.getD []).getD i (.vec []))).2.getD j []) else none

/-- The trajectories of a parametric training set: one for each parameter value, of states of length `r`, with (if the
model has inputs) inputs of length `m` for all times but the last. -/
structure TrajData (M : PModel K S) (ps : List (Par K)) (trajs : List (List (List K)))
    (inputs : Option (List (Arg K))) (r m : Nat) : Prop where
  count : trajs.length = ps.length
  states : ∀ Q ∈ trajs, ∀ q ∈ Q, q.length = r
  inp : M.hasInputs = true → ∃ us, inputs = some us ∧ us.length = ps.length ∧
    (∀ U ∈ us, U.WF ∧ (∀ x, U ≠ .scalar x) ∧ (atleast2d U).1 = m) ∧
    ∀ x ∈ zip us trajs, x.2.length - 1 ≤ (atleast2d x.1).2.length
  noinp : M.hasInputs = false → inputs = none

theorem not_any_scalar (inputs : Option (List (Arg K))) (n : Nat) (h : ∀ us ∈ inputs, ∀ U ∈ us, ∀ x, U ≠ .scalar x) :
    ¬ (inputs.any fun us => (us.take n).any Arg.isScalar) = true := by
  cases inputs with
  | none => simp
  | some us =>
    simp only [Option.any_some, any_eq_true, not_exists, not_and, Bool.not_eq_true]
    intro U hU
    have := h us rfl U (mem_of_mem_take hU)
    cases U with
    | scalar x => exact absurd rfl (this x)
    | vec xs => rfl
    | mat k cols => rfl

theorem pfitDiscrete_eq [CommRing K] [LinearOrder K] (lib : ItpLib K) (I : SolverI K S) (M : PModel K S)
    (ps : List (Par K)) (r : Nat) (trajs : List (List (List K))) (inputs : Option (List (Arg K)))
    (hs : ∀ us ∈ inputs, ∀ U ∈ us, ∀ x, U ≠ .scalar x) :
    M.fitDiscrete lib I ps (trajs.map fun Q => (r, Q)) none inputs =
      M.fit lib I ps (trajs.map fun Q => .mat r (Q.take (Q.length - 1))) (trajs.map fun Q => .mat r (Q.drop 1))
        (inputs.map fun us => zipWith (fun U Q => U.takeCols (Q.length - 1)) us trajs) := by
  have e1 : ∀ Q : List (List K), pySlice 0 (some (-1)) Q = Q.take (Q.length - 1) :=
    fun Q => pySlice_fwd 1 (by omega) Q
  have e2 : ∀ Q : List (List K), pySlice 1 none Q = Q.drop 1 := fun Q => pySlice_bwd 1 Q
  unfold PModel.fitDiscrete
  simp only
  rw [if_neg (not_any_scalar inputs _ hs)]
  simp only [e1, e2, map_map, Function.comp_def, zipWith_map_right, length_take]
  congr 1
  cases inputs with
  | none => rfl
  | some us =>
    simp only [Option.map_some, Option.some.injEq]
    congr 1
    funext U Q
    congr 1
    omega

theorem takeCols_WF (U : Arg K) (n : Nat) (h : U.WF) : (U.takeCols n).WF := by
  cases U with
  | scalar x => exact h
  | vec xs =>
    intro c hc
    simp only [Arg.takeCols, atleast2d] at hc ⊢
    obtain ⟨x, -, rfl⟩ := mem_map.mp hc
    rfl
  | mat k cols => exact fun c hc => h c (mem_of_mem_take hc)

/-- **C58, trajectories.** After `fit(parameters, states, inputs=inputs)` of a parametric discrete-time model without
next states, with `D` and `Z` what the solver was given and `O` its solution: there is one row for each transition of
each trajectory, in order; and the residual of the regression in the row of the transition from `q_{i,j}` to
`q_{i,j+1}` is `q_{i,j+1} − rhs(mu_i, q_{i,j}, u_{i,j})` with the fitted model. -/
theorem C58_discrete [Field K] [LinearOrder K] (lib : ItpLib K) (I : SolverI K S) (M M' : PModel K S)
    (hint : M.intrusive = false) (hne : M.slots ≠ []) (ps : List (Par K)) (hps : ps ≠ [])
    (trajs : List (List (List K))) (inputs : Option (List (Arg K))) (r m : Nat) (hr : 0 < r)
    (hm : M.hasInputs = false → m = 0) (hflag : ∀ o ∈ M.ops, o.kind.hasInputs = true → M.hasInputs = true)
    (hT : TrajData M ps trajs inputs r m)
    (hknown : ∀ s ∈ M.slots, s.infer = false → ∀ mu ∈ ps, ∃ op, s.op.EvalsTo lib mu r m op)
    (hL : ∀ s ∈ M.slots, s.infer = true → s.op.Learnable lib ps) (hI : I.Shaped r)
    (hfit : M.fitDiscrete lib I ps (trajs.map fun Q => (r, Q)) none inputs = (M', .ok ())) :
    ∃ (s : S) (D O : Mat K) (Z : List (List K)),
      M.solver = some s ∧ (I.fit s D Z).2 = .ok () ∧ I.solve (I.fit s D Z).1 = .ok O ∧ D.WF ∧ O.WF ∧
      O.nrows = r ∧ O.ncols = D.ncols ∧
      D.nrows = (trajs.map fun Q => Q.length - 1).sum ∧ Z.length = (trajs.map fun Q => Q.length - 1).sum ∧
      ∀ (i j : Nat) (mu : Par K) (Q : List (List K)) (q q' : List K), ps[i]? = some mu → trajs[i]? = some Q →
        Q[j]? = some q → Q[j + 1]? = some q' →
        ∃ d z v, D.rows[((trajs.take i).map fun Q => Q.length - 1).sum + j]? = some d ∧
          Z[((trajs.take i).map fun Q => Q.length - 1).sum + j]? = some z ∧
          (M'.rhs lib mu q (inputOf M.hasInputs inputs i j)).2 = .ok v ∧
          vsub z (matVec O.rows d) = vsub q' v := by
  rw [pfitDiscrete_eq lib I M ps r trajs inputs (by
    intro us hus U hU
    cases hi : M.hasInputs with
    | false => rw [hT.noinp hi] at hus; simp at hus
    | true =>
      obtain ⟨us', rfl, -, h2, -⟩ := hT.inp hi
      simp only [Option.mem_some_iff] at hus
      subst hus
      exact (h2 U hU).2.1)] at hfit
  have hA : PFitArgs lib M ps (trajs.map fun Q => .mat r (Q.take (Q.length - 1)))
      (trajs.map fun Q => .mat r (Q.drop 1))
      (inputs.map fun us => zipWith (fun U Q => U.takeCols (Q.length - 1)) us trajs) r m := by
    refine ⟨hps, hne, ?_, ?_, ?_, hr, ?_, ?_, hm, hflag, hknown⟩
    · intro a ha
      obtain ⟨Q, hQ, rfl⟩ := mem_map.mp ha
      exact fun c hc => hT.states Q hQ c (mem_of_mem_take hc)
    · intro a ha
      obtain ⟨Q, hQ, rfl⟩ := mem_map.mp ha
      exact fun c hc => hT.states Q hQ c (mem_of_mem_drop hc)
    · intro vs hvs a ha
      cases hi : M.hasInputs with
      | false => rw [hT.noinp hi] at hvs; simp at hvs
      | true =>
        obtain ⟨us, rfl, hu1, hu2, hu3⟩ := hT.inp hi
        simp only [Option.map_some, Option.mem_some_iff] at hvs
        subst hvs
        rw [← map_uncurry_zip_eq_zipWith] at ha
        obtain ⟨⟨U, Q⟩, hUQ, rfl⟩ := mem_map.mp ha
        exact takeCols_WF U _ (hu2 U (of_mem_zip hUQ).1).1
    · intro a ha
      obtain ⟨Q, hQ, rfl⟩ := mem_map.mp ha
      rfl
    · intro hi vs hvs a ha
      obtain ⟨us, rfl, hu1, hu2, hu3⟩ := hT.inp hi
      simp only [Option.map_some, Option.mem_some_iff] at hvs
      subst hvs
      rw [← map_uncurry_zip_eq_zipWith] at ha
      obtain ⟨⟨U, Q⟩, hUQ, rfl⟩ := mem_map.mp ha
      obtain ⟨-, h2, h3⟩ := hu2 U (of_mem_zip hUQ).1
      rw [Function.uncurry_apply_pair, atleast2d_takeCols _ _ h2]
      exact h3
  obtain ⟨s, D, O, Z, g1, g2, g3, g4, g5, g6, g7, g8, g9, g10, g11⟩ :=
    C58_fit_residual lib I M M' hint ps _ _ _ r m hA hL hI hfit
  have hflat : (trajs.map fun Q => Arg.mat r (Q.drop 1)).flatMap (fun L => (atleast2d L).2)
      = trajs.flatMap fun Q => Q.drop 1 := by
    rw [flatMap_map]; rfl
  rw [hflat] at g10 g11
  have hlen : (trajs.flatMap fun Q => Q.drop 1).length = (trajs.map fun Q => Q.length - 1).sum := by
    rw [length_flatMap]
    congr 1
    apply map_congr_left
    intro Q hQ
    simp
  refine ⟨s, D, O, Z, g1, g2, g3, g4, g5, g6, g7, by rw [g8, ← g10, hlen], by rw [g9, ← g10, hlen], ?_⟩
  intro i j mu Q q q' hmu hQ hq hq'
  have hj : j + 1 < Q.length := (List.getElem?_eq_some_iff.mp hq').1
  -- the left-hand side
  have hl : (trajs.flatMap fun Q => Q.drop 1)[((trajs.take i).map fun Q => Q.length - 1).sum + j]? = some q' := by
    have := getElem?_flatMap_at (fun Q : List (List K) => Q.drop 1) trajs i j Q hQ (by simp; omega)
    simp only [length_drop] at this
    rw [this, getElem?_drop, ← hq', Nat.add_comm]
  -- the sample
  have hs : (trainSamples M.hasInputs ps (trajs.map fun Q => Arg.mat r (Q.take (Q.length - 1)))
      (inputs.map fun us => zipWith (fun U Q => U.takeCols (Q.length - 1)) us trajs))[
        ((trajs.take i).map fun Q => Q.length - 1).sum + j]?
      = some (mu, q, inputOf M.hasInputs inputs i j) := by
    cases hi : M.hasInputs with
    | false =>
      have e : trainSamples false ps (trajs.map fun Q => Arg.mat r (Q.take (Q.length - 1)))
          (inputs.map fun us => zipWith (fun U Q => U.takeCols (Q.length - 1)) us trajs)
          = (zip ps trajs).flatMap fun x => (x.2.take (x.2.length - 1)).map fun q => (x.1, q, none) := by
        simp only [trainSamples, trainData, dataSamples, zipWith_map_right, Bool.false_eq_true, if_false]
        rw [← map_uncurry_zip_eq_zipWith, flatMap_map]
        rfl
      rw [e]
      have hx : (zip ps trajs)[i]? = some (mu, Q) := by rw [getElem?_zip_eq_some]; exact ⟨hmu, hQ⟩
      have := getElem?_flatMap_at
        (fun x : Par K × List (List K) => (x.2.take (x.2.length - 1)).map fun q => (x.1, q, (none : Option (List K))))
        (zip ps trajs) i j (mu, Q) hx (by simp; omega)
      have hsum : (((zip ps trajs).take i).map fun x =>
          ((x.2.take (x.2.length - 1)).map fun q => (x.1, q, (none : Option (List K)))).length)
          = (trajs.take i).map fun Q => Q.length - 1 := by
        have h1 : ((zip ps trajs).take i).map Prod.snd = trajs.take i := by
          rw [map_take, map_snd_zip (le_of_eq hT.count)]
        rw [← h1, map_map]
        apply map_congr_left
        intro x hx
        simp
      rw [hsum] at this
      rw [this, getElem?_map, getElem?_take, if_pos (by simp only; omega)]
      simp only [hq, Option.map_some, inputOf]
      rfl
    | true =>
      obtain ⟨us, rfl, hu1, hu2, hu3⟩ := hT.inp hi
      have e : trainSamples true ps (trajs.map fun Q => Arg.mat r (Q.take (Q.length - 1)))
          (Option.map (fun us => zipWith (fun U Q => U.takeCols (Q.length - 1)) us trajs) (some us))
          = (zip ps (zip us trajs)).flatMap fun x => (zip (x.2.2.take (x.2.2.length - 1))
              ((atleast2d x.2.1).2.take (x.2.2.length - 1))).map fun p => (x.1, p.1, some p.2) := by
        simp only [trainSamples, trainData, dataSamples, Option.map_some, Option.getD_some, if_true]
        rw [← map_uncurry_zip_eq_zipWith, ← map_uncurry_zip_eq_zipWith, flatMap_map]
        have hz : zip (trajs.map fun Q => Arg.mat r (Q.take (Q.length - 1)))
            ((zip us trajs).map (Function.uncurry fun U Q => U.takeCols (Q.length - 1)))
            = (zip us trajs).map fun x => (Arg.mat r (x.2.take (x.2.length - 1)), x.1.takeCols (x.2.length - 1)) := by
          apply ext_getElem (by simp [hu1, hT.count])
          intro k h1 h2
          simp [Function.uncurry]
        rw [hz, zip_map_right, flatMap_map]
        apply flatMap_congr
        intro x hx
        obtain ⟨x1, U, Q'⟩ := x
        have hU := (hu2 U (of_mem_zip (of_mem_zip hx).2).1).2.1
        simp only [Prod.map, id, Function.uncurry_apply_pair, atleast2d_takeCols _ U hU]
        rfl
      rw [e]
      obtain ⟨U, hU⟩ : ∃ U, us[i]? = some U := by
        have : i < us.length := by
          rw [hu1, ← hT.count]; exact (List.getElem?_eq_some_iff.mp hQ).1
        exact ⟨us[i], getElem?_eq_getElem this⟩
      have hUQ : (U, Q) ∈ zip us trajs := by
        apply mem_of_getElem? (i := i)
        rw [getElem?_zip_eq_some]; exact ⟨hU, hQ⟩
      have hw := hu3 _ hUQ
      simp only at hw
      have hx : (zip ps (zip us trajs))[i]? = some (mu, U, Q) := by
        rw [getElem?_zip_eq_some]
        refine ⟨hmu, ?_⟩
        rw [getElem?_zip_eq_some]; exact ⟨hU, hQ⟩
      have := getElem?_flatMap_at
        (fun x : Par K × Arg K × List (List K) => (zip (x.2.2.take (x.2.2.length - 1))
              ((atleast2d x.2.1).2.take (x.2.2.length - 1))).map fun p => (x.1, p.1, some p.2))
        (zip ps (zip us trajs)) i j (mu, U, Q) hx (by simp; omega)
      have hsum : (((zip ps (zip us trajs)).take i).map fun x => ((zip (x.2.2.take (x.2.2.length - 1))
              ((atleast2d x.2.1).2.take (x.2.2.length - 1))).map fun p => (x.1, p.1, some p.2)).length)
          = (trajs.take i).map fun Q => Q.length - 1 := by
        have h1 : ((zip ps (zip us trajs)).take i).map (fun x => x.2.2) = trajs.take i := by
          rw [map_take, show (zip ps (zip us trajs)).map (fun x => x.2.2)
            = ((zip ps (zip us trajs)).map Prod.snd).map Prod.snd by rw [map_map]; rfl,
            map_snd_zip (by simp [hu1, hT.count]), map_snd_zip (by rw [hu1, hT.count])]
        rw [← h1, map_map]
        apply map_congr_left
        intro x hx
        have hx' := hu3 x.2 (of_mem_zip (mem_of_mem_take hx)).2
        simp
        omega
      rw [hsum] at this
      rw [this, getElem?_map]
      have hz : (zip (Q.take (Q.length - 1)) ((atleast2d U).2.take (Q.length - 1)))[j]?
          = some (q, (atleast2d U).2.getD j []) := by
        rw [getElem?_zip_eq_some, getElem?_take, if_pos (by omega), getElem?_take, if_pos (by omega)]
        refine ⟨hq, ?_⟩
        rw [getElem?_eq_getElem (by omega), getD_eq_getElem _ _ (by omega)]
      simp only [hz, Option.map_some, inputOf, if_true, Option.getD_some]
      rw [show us.getD i (.vec []) = U by rw [getD_eq_getElem?_getD, hU]; rfl]
  obtain ⟨d, l, z, v, a1, a2, a3, a4, a5⟩ := g11 _ _ hs
  rw [hl, Option.some.injEq] at a2
  subst a2
  exact ⟨d, z, v, a1, a3, a4, a5⟩

/-- The hypotheses of `C58_discrete` are satisfiable. -/
example : TrajData pEx pExPars [[[1, 2], [3, 4], [1, 1]], [[5, 7], [0, 1]]] none 2 0 ∧
    (pEx.fitDiscrete toyLib exSolver pExPars ([[[1, 2], [3, 4], [1, 1]], [[5, 7], [0, 1]]].map fun Q => (2, Q))
      none none).2 = .ok () := by
  refine ⟨⟨rfl, ?_, by simp [pEx], fun _ => rfl⟩, by decide +kernel⟩
  intro Q hQ q hq
  simp only [mem_cons, not_mem_nil, or_false] at hQ
  rcases hQ with rfl | rfl <;> simp only [mem_cons, not_mem_nil, or_false] at hq
  · rcases hq with rfl | rfl | rfl <;> rfl
  · rcases hq with rfl | rfl <;> rfl

/-- With next states given, they are the left-hand sides and the inputs are cut to the number of states. -/
theorem C58_discrete_nextstates [CommRing K] [LinearOrder K] (lib : ItpLib K) (I : SolverI K S) (M : PModel K S)
    (ps : List (Par K)) (r : Nat) (states : List (List (List K))) (next : List (Arg K)) (inputs : Option (List (Arg K)))
    (hs : ∀ us ∈ inputs, ∀ U ∈ us, ∀ x, U ≠ .scalar x) :
    M.fitDiscrete lib I ps (states.map fun Q => (r, Q)) (some next) inputs =
      M.fit lib I ps (states.map fun Q => .mat r Q) next
        (inputs.map fun us => zipWith (fun U Q => U.takeCols Q.length) us states) := by
  unfold PModel.fitDiscrete
  simp only
  rw [if_neg (not_any_scalar inputs _ hs)]
  simp only [map_map, Function.comp_def, zipWith_map_right]

/-! ### The constructors of affine and interpolated operators -/

/-- **C09, coefficient functions.** With a list of coefficient functions the affine operator has one term for each, and
its coefficients at `mu` are the values of the functions at `mu`, in the given order; it raises if one of them does. -/
theorem C09_functions (kind : OpKind) (fs : List (Par K → Except Err K)) (nt : Option Int) [AddMonoid K]
    (hnt : ∀ n ∈ nt, 1 ≤ n) :
    ∃ a, Affine.make kind (.list (fs.map some)) nt none = .ok a ∧ a.kind = kind ∧ a.nterms = fs.length ∧ a.p = none ∧
      a.entries = none ∧
      (∀ mu th, a.thetas mu = .ok th ↔ Forall₂ (fun f t => f mu = .ok t) fs th) := by
  have h0 : ¬ (nt.any (· < 1)) = true := by
    cases nt with
    | none => simp
    | some n => have := hnt n rfl; simp; omega
  have h1 : ¬ (fs.map some).any Option.isNone = true := by simp
  have h2 : (fs.map some).filterMap id = fs := by simp
  refine ⟨⟨kind, fs.length, vectorized fs, none, none⟩, ?_, rfl, rfl, rfl, rfl, ?_⟩
  · simp only [Affine.make, Affine.start]
    rw [if_neg h0, if_neg h1, h2, length_map]
  · intro mu th
    simp only [Affine.thetas, vectorized]
    rw [← mapM_ok_forall2]
    cases hm : fs.mapM fun f => f mu with
    | error e => simp
    | ok xs => simp

/-- **C09, a number of coefficients.** With a positive integer `n` the operator has `n` terms, its coefficients at a
vector are the components of the vector, and only parameters of dimension `n` are accepted. -/
theorem C09_identity (kind : OpKind) (n : Nat) (hn : 0 < n) (nt : Option Int) [AddMonoid K]
    (hnt : ∀ k ∈ nt, 1 ≤ k) :
    ∃ a : Affine K, Affine.make kind (.int n) nt none = .ok a ∧ a.kind = kind ∧ a.nterms = n ∧ a.p = some n ∧
      a.entries = none ∧ (∀ xs, a.thetas (.vec xs) = .ok xs) ∧ ∀ mu, a.Accepts mu ↔ mu.dim = n := by
  have h0 : ¬ (nt.any (· < 1)) = true := by
    cases nt with
    | none => simp
    | some n => have := hnt n rfl; simp; omega
  refine ⟨⟨kind, n, fun mu => .ok mu, some n, none⟩, ?_, rfl, rfl, rfl, rfl, fun xs => rfl, fun mu => ?_⟩
  · simp only [Affine.make, Affine.start]
    rw [if_neg h0, if_pos (by omega)]
    simp
  · simp [Affine.Accepts, eq_comm]

/-- **C09, one coefficient function.** A callable needs the number of terms. -/
theorem C09_callable (kind : OpKind) (f : Par K → Except Err (Par K)) [AddMonoid K] :
    (∀ e, Affine.make kind (.func f) none e = .error .value) ∧
    ∀ n : Nat, 0 < n → Affine.make kind (.func f) (some n) none = .ok ⟨kind, n, f, none, none⟩ := by
  refine ⟨fun e => rfl, fun n hn => ?_⟩
  simp only [Affine.make, Affine.start]
  rw [if_neg (by simp; omega)]
  simp

/-- **C09, refused coefficients.** A number of terms below one, integers below one, lists with something that is not
callable and anything else are refused with `TypeError`, whatever the entries. -/
theorem C09_construct_refused (kind : OpKind) (c : CoefArg K) (nt : Option Int) (e : Option (EntArg K)) [AddMonoid K]
    (h : (∃ n, nt = some n ∧ n < 1) ∨ (∃ n, c = .int n ∧ n < 1) ∨ (∃ fs, c = .list fs ∧ none ∈ fs) ∨ c = .other) :
    Affine.make kind c nt e = .error .type := by
  have hs : Affine.start kind c nt = .error .type := by
    unfold Affine.start
    by_cases h0 : (nt.any (· < 1)) = true
    · rw [if_pos h0]
    · rw [if_neg h0]
      rcases h with ⟨n, rfl, hn⟩ | ⟨n, rfl, hn⟩ | ⟨fs, rfl, hfs⟩ | rfl
      · exact absurd (by simpa using hn) h0
      · simp only
        rw [if_neg (by omega)]
      · simp only
        rw [if_pos (any_eq_true.mpr ⟨none, hfs, rfl⟩)]
      · rfl
  rw [Affine.make, hs]

/-- **C09, entries.** Entries given to the constructor are those of the operator: as many arrays as there are terms, of
the shape of the operator class. Another number of them is refused with `ValueError`. -/
theorem C09_construct_entries [Field K] (kind : OpKind) (c : CoefArg K) (nt : Option Int) (a : Affine K)
    (h : Affine.make kind c nt none = .ok a) (As : List (Mat K)) (r m : Nat) (hr : 0 < r)
    (hA : ∀ A ∈ As, a.kind.Fits A r m) :
    (As.length = a.nterms → Affine.make kind c nt (some (.list As)) = .ok { a with entries := some As }) ∧
    (As.length ≠ a.nterms → Affine.make kind c nt (some (.list As)) = .error .value) := by
  have hs : Affine.start kind c nt = .ok a := by
    rw [Affine.make] at h
    cases hs : Affine.start kind c nt with
    | error e => rw [hs] at h; simp at h
    | ok b => rw [hs] at h; simpa using h
  constructor
  · intro hlen
    rw [Affine.make, hs]
    simp only [Affine.setEntries, parseEntries_list a.kind r m a.nterms hr As hA hlen]
  · intro hlen
    have hpe : parseEntries a.kind a.nterms (.list As) = .error .value := by
      simp only [parseEntries, bind, Except.bind]
      rw [sameShapes_of (fun A hA' => ⟨(hA A hA').2.1, (hA A hA').2.2⟩)]
      simp [hlen, throw, throwThe, MonadExceptOf.throw, pure, Except.pure]
    rw [Affine.make, hs]
    simp only [Affine.setEntries, hpe]

example : (match Affine.make (K := ℚ) .lin (.list [some fun _ => .ok 1, some fun mu => .ok (mu.toList.getD 1 0)]) none none with
    | .ok a => a.thetas (.vec [5, 7]) | .error e => .error e) = .ok [1, 7] := by decide +kernel

/-- **C12, interpolating given operators.** Only operators of the class to be interpolated are accepted (`TypeError`
otherwise), and only with entries (`ValueError`); the first offending operator decides. Otherwise the result is what the
constructor makes of the entries, in the given order. -/
theorem C12_from_operators [AddMonoid K] [LinearOrder K] (lib : ItpLib K) (kind : OpKind) (ps : List (Par K))
    (c : Option ItpClass) :
    (∀ (As : List (Mat K)), Interp.fromOperators lib kind ps (As.map fun A => ⟨kind, some A⟩) c
      = Interp.make lib kind (some ps) (some (.list As)) c) ∧
    (∀ (As : List (Mat K)) (o : Op K) (rest : List (Op K)), o.kind ≠ kind →
      Interp.fromOperators lib kind ps (As.map (fun A => ⟨kind, some A⟩) ++ o :: rest) c = .error .type) ∧
    (∀ (As : List (Mat K)) (rest : List (Op K)),
      Interp.fromOperators lib kind ps (As.map (fun A => ⟨kind, some A⟩) ++ ⟨kind, none⟩ :: rest) c = .error .value) := by
  have h1 : ∀ As : List (Mat K), (As.map fun A => (⟨kind, some A⟩ : Op K)).mapM (entriesOf kind) = .ok As := by
    intro As
    rw [mapM_ok_forall2, forall₂_map_left_iff, forall₂_same]
    intro A hA
    simp [entriesOf]
  have h2 : ∀ (As : List (Mat K)) (o : Op K) (rest : List (Op K)) (e : Err), entriesOf kind o = .error e →
      (As.map (fun A => (⟨kind, some A⟩ : Op K)) ++ o :: rest).mapM (entriesOf kind) = .error e := by
    intro As o rest e he
    rw [mapM_append, h1, mapM_cons, he]
    rfl
  refine ⟨fun As => ?_, fun As o rest ho => ?_, fun As rest => ?_⟩
  · rw [Interp.fromOperators, h1]
  · rw [Interp.fromOperators, h2 As o rest .type (by simp [entriesOf, ho])]
  · rw [Interp.fromOperators, h2 As ⟨kind, none⟩ rest .value (by simp [entriesOf])]

end Opinf
