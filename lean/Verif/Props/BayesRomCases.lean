import Verif.Props.BayesRom
import Verif.Props.RomSelectCases
import Verif.Props.RomSelectTests

/-!
# C125: what the draws of a Bayesian reduced-order model are compared with
-/

namespace Opinf

open List

variable {K T B S G C : Type}

/-- `M` is the mean of `draws`, entry by entry; `M` has `k` columns of length `r`. -/
def IsMeanOf [Field K] (k r : Nat) (draws : List (List (List K))) (M : List (List K)) : Prop :=
  M.length = k ∧ (∀ q ∈ M, q.length = r) ∧ ∀ j i : Nat, j < k → i < r →
    (M.getD j []).getD i 0 = (draws.map fun d => (d.getD j []).getD i 0).sum / (draws.length : K)

theorem foldl_vadd [Field K] (k r : Nat) : ∀ (ds : List (List (List K))) (d : List (List K)),
    (∀ x ∈ d :: ds, x.length = k ∧ ∀ q ∈ x, q.length = r) →
    (ds.foldl (zipWith vadd) d).length = k ∧ (∀ q ∈ ds.foldl (zipWith vadd) d, q.length = r) ∧
    ∀ j i : Nat, j < k → i < r → ((ds.foldl (zipWith vadd) d).getD j []).getD i 0
      = ((d :: ds).map fun d => (d.getD j []).getD i 0).sum := by
  intro ds
  induction ds with
  | nil =>
    intro d h
    obtain ⟨h1, h2⟩ := h d (by simp)
    exact ⟨h1, h2, by simp⟩
  | cons e ds ih =>
    intro d h
    obtain ⟨d1, d2⟩ := h d (by simp)
    obtain ⟨e1, e2⟩ := h e (by simp)
    have hz : ∀ j : Nat, (hj : j < k) → (zipWith vadd d e)[j]? = some (vadd (d.getD j []) (e.getD j [])) := by
      intro j hj
      rw [getElem?_zipWith, getElem?_eq_getElem (by omega), getElem?_eq_getElem (by omega)]
      simp only [getD_eq_getElem?_getD]
      rw [getElem?_eq_getElem (by omega), getElem?_eq_getElem (by omega)]
      rfl
    have hlen : ∀ j : Nat, j < k → (d.getD j []).length = r ∧ (e.getD j []).length = r := by
      intro j hj
      rw [getD_eq_getElem?_getD, getD_eq_getElem?_getD, getElem?_eq_getElem (by omega), getElem?_eq_getElem (by omega)]
      exact ⟨d2 _ (getElem_mem _), e2 _ (getElem_mem _)⟩
    have hwf : (zipWith vadd d e).length = k ∧ ∀ q ∈ zipWith vadd d e, q.length = r := by
      refine ⟨by rw [length_zipWith, d1, e1, Nat.min_self], fun q hq => ?_⟩
      obtain ⟨j, hj, rfl⟩ := mem_iff_getElem.mp hq
      have hj' : j < k := by rw [length_zipWith] at hj; omega
      have := hz j hj'
      rw [getElem?_eq_getElem hj, Option.some.injEq] at this
      rw [this, vadd, length_zipWith, (hlen j hj').1, (hlen j hj').2, Nat.min_self]
    obtain ⟨g1, g2, g3⟩ := ih (zipWith vadd d e) (by
      intro x hx
      rcases mem_cons.mp hx with rfl | hx
      · exact hwf
      · exact h x (by simp [hx]))
    refine ⟨g1, g2, fun j i hj hi => ?_⟩
    rw [foldl_cons, g3 j i hj hi]
    simp only [map_cons, sum_cons]
    rw [← add_assoc]
    congr 1
    rw [getD_eq_getElem?_getD (l := zipWith vadd d e), hz j hj, Option.getD_some]
    obtain ⟨l1, l2⟩ := hlen j hj
    generalize d.getD j [] = a at l1 ⊢
    generalize e.getD j [] = b at l2 ⊢
    have ha : i < a.length := by omega
    have hb : i < b.length := by omega
    simp only [vadd, getD_eq_getElem?_getD, getElem?_zipWith, getElem?_eq_getElem ha, getElem?_eq_getElem hb, Option.getD_some]

theorem meanDraws_isMean [Field K] (k r : Nat) (draws : List (List (List K))) (hne : draws ≠ [])
    (h : ∀ x ∈ draws, x.length = k ∧ ∀ q ∈ x, q.length = r) : IsMeanOf k r draws (meanDraws draws) := by
  cases draws with
  | nil => exact absurd rfl hne
  | cons d ds =>
    obtain ⟨g1, g2, g3⟩ := foldl_vadd k r ds d h
    simp only [meanDraws]
    refine ⟨by rw [length_map, g1], ?_, fun j i hj hi => ?_⟩
    · intro q hq
      obtain ⟨q', hq', rfl⟩ := mem_map.mp hq
      rw [length_map, g2 q' hq']
    · rw [← g3 j i hj hi]
      have hj' : j < (ds.foldl (zipWith vadd) d).length := by omega
      rw [getD_eq_getElem?_getD (l := map _ _), getElem?_map, getElem?_eq_getElem hj']
      simp only [Option.map_some, Option.getD_some]
      rw [getD_eq_getElem?_getD (l := ds.foldl (zipWith vadd) d), getElem?_eq_getElem hj', Option.getD_some]
      have hi' : i < ((ds.foldl (zipWith vadd) d)[j]).length := by rw [g2 _ (getElem_mem _)]; exact hi
      rw [getD_eq_getElem?_getD, getElem?_map, getElem?_eq_getElem hi', getD_eq_getElem?_getD, getElem?_eq_getElem hi']
      rfl

/-- **C125.** What a training trajectory with encoded snapshots `e_0, .., e_{k-1}` asks of draws in
`fit_regselect_discrete`: the drawn model is started from `e_0`, gives `k - 1 + numTest` states, and these stay near the
snapshots `e_0, .., e_{k-2}`; and the error is the relative Frobenius error of the mean of the draws over the first `k - 1`
states. -/
theorem C125_discrete_trajectory [Field K] [LinearOrder K] (sqrt : K → K) (margin : K) (numTest : Nat) (e Y : Snap K)
    (he : e.WF) (hY : e.initCols = .ok Y) (U : PredInput K) (c : BayesCase K S)
    (hc : bayesDiscTrain sqrt margin numTest Y U = .ok c) :
    (∀ (M : Model K S) Q, (c.predict M = .ok Q ∧ c.unstable Q = .ok false) ↔
      ∃ L, M.predict (e.columnList.headD []) (e.columnList.length - 1 + numTest : Nat) U = .ok L ∧
        StaysNear e.nrows e.columnList.dropLast margin L ∧ Q = finiteTraj L) ∧
    ∀ (Ls : List (List (List K))) (err : Val K), Ls ≠ [] →
      (∀ L ∈ Ls, L.length = e.columnList.length - 1 + numTest ∧ ∀ q ∈ L, q.length = e.nrows) →
      c.error (Ls.map finiteTraj) = .ok err → ∃ mean, IsMeanOf (e.columnList.length - 1) e.nrows Ls mean ∧
        (frobeniusError sqrt (.mat e.nrows e.columnList.dropLast) (.mat e.nrows mean)).map Prod.snd = .ok err := by
  obtain ⟨hYW, hcols⟩ := initCols_ok he hY
  cases e with
  | vec xs => cases hY
  | mat k rows =>
    cases Y with
    | vec xs => cases hY
    | mat k' rows' =>
      have hrow : rows'.length = rows.length := by
        simp only [Snap.initCols, Except.ok.injEq, Snap.mat.injEq] at hY
        rw [← hY.2, length_map]
      have hn : (Snap.mat k rows).nrows = rows.length := rfl
      have hcl : transpose k' rows' = (Snap.mat k rows).columnList.dropLast := hcols
      have hclen : ∀ q ∈ (Snap.mat k rows).columnList.dropLast, q.length = rows.length := by
        rw [← hcl, ← hrow]
        intro q hq
        simp only [transpose, mem_map, mem_range] at hq
        obtain ⟨j, -, rfl⟩ := hq
        simp
      simp only [bayesDiscTrain, hrow, hcl] at hc
      rw [hn]
      generalize (Snap.mat k rows).columnList = cols at *
      clear hcols hcl hYW
      cases hlim : stabilityLimit rows.length margin cols.dropLast with
      | error x => rw [hlim] at hc; cases hc
      | ok L0 =>
        rw [hlim] at hc
        cases hc
        obtain ⟨D, hD, hL0⟩ := stabilityLimit_ok _ _ _ hclen _ hlim
        obtain ⟨q1, hq1, i1, hi1, -⟩ := hD.2
        have hhead : cols.dropLast.headD [] = cols.headD [] ∧ (cols.headD []).length = rows.length := by
          cases cols with
          | nil => cases hq1
          | cons q cols =>
            cases cols with
            | nil => simp at hq1
            | cons q' cols =>
              simp only [dropLast_cons₂, headD_cons, true_and]
              exact hclen q (by simp)
        refine ⟨fun M Q => ?_, ?_⟩
        · simp only [bayesDiscreteCase, hhead.1, length_dropLast]
          cases hpr : M.predict (cols.headD []) (cols.length - 1 + numTest : Nat) U with
          | error x => simp [Except.map]
          | ok L =>
            have hLlen : ∀ q ∈ L, q.length = rows.length := by
              rw [← hhead.2]; exact predict_columns hpr
            have hp := hpr
            rw [C15_predict_iff] at hp
            obtain ⟨-, -, b1, -, b2, b3, -⟩ := hp
            have hLne : L ≠ [] := by
              rintro rfl
              simp at b2
              omega
            have hdne : (finiteTraj L).dists (meanCol rows.length cols.dropLast) ≠ [] := by
              obtain ⟨q, L', rfl⟩ := exists_cons_of_ne_nil hLne
              intro h0
              simp only [Traj.dists, finiteTraj, map_cons, flatten_cons, append_eq_nil_iff] at h0
              have h1 := congrArg length h0.1
              have := hLlen q (by simp)
              simp only [meanCol_eq, length_zipWith, length_map, length_range, length_nil, this] at h1
              omega
            have hst : unstableDisc (meanCol rows.length cols.dropLast) L0 (finiteTraj L) = .ok false ↔
                StaysNear rows.length cols.dropLast margin L := by
              obtain ⟨s1, s2, -⟩ := C49_discrete_stable (meanCol rows.length cols.dropLast) (finiteTraj L) hdne
              rcases hL0 with ⟨h0, rfl⟩ | ⟨h0, rfl⟩
              · rw [s2]
                exact ⟨fun _ => ⟨D, hD, Or.inl h0⟩, fun _ => finiteTraj_finite L⟩
              · rw [s1, finiteTraj_within _ _ _ hLlen]
                constructor
                · rintro ⟨-, h⟩; exact ⟨D, hD, Or.inr h⟩
                · rintro ⟨E, hE, h⟩
                  have := isDeviation_unique hE hD
                  subst this
                  exact ⟨finiteTraj_finite L, h.resolve_left h0⟩
            simp only [Except.map, Except.ok.injEq]
            constructor
            · rintro ⟨rfl, h1⟩
              exact ⟨L, rfl, hst.1 h1, rfl⟩
            · rintro ⟨_, rfl, h1, rfl⟩
              exact ⟨rfl, hst.2 h1⟩
        · intro Ls err hne hsh herr
          have hne' : (Ls.map finiteTraj).isEmpty = false := by
            cases Ls with
            | nil => exact absurd rfl hne
            | cons a l => rfl
          simp only [bayesDiscreteCase, hne', Bool.false_eq_true, if_false, length_dropLast, map_map] at herr
          have hcomp : ((fun sol : Traj K => sol.nums.take (cols.length - 1)) ∘ finiteTraj)
              = fun L : List (List K) => L.take (cols.length - 1) := by
            funext L
            simp only [Function.comp_apply, finiteTraj_nums]
          rw [hcomp] at herr
          refine ⟨_, ?_, herr⟩
          obtain ⟨m1, m2, m3⟩ := meanDraws_isMean (cols.length - 1) rows.length (Ls.map fun L => L.take (cols.length - 1))
            (by simpa using hne) (by
              intro x hx
              obtain ⟨L, hL, rfl⟩ := mem_map.mp hx
              obtain ⟨a1, a2⟩ := hsh L hL
              exact ⟨by rw [length_take]; omega, fun q hq => a2 q (mem_of_mem_take hq)⟩)
          refine ⟨m1, m2, fun j i hj hi => ?_⟩
          rw [m3 j i hj hi, map_map, length_map]
          congr 2
          refine map_congr_left fun L _ => ?_
          simp only [Function.comp_apply, getD_eq_getElem?_getD, getElem?_take, if_pos hj]

/-- **C125.** The training trajectories and test cases of `fit_regselect_discrete` of a Bayesian reduced-order model: one
training case for each trajectory, made from its encoded snapshots and its inputs; and one test case for each given one,
started from its encoded initial conditions. -/
theorem C125_discrete_cases [Field K] [LinearOrder K] (sqrt : K → K) (margin : K) (numTest : Nat)
    (tests : List (DiscTest K)) (R R1 : FRom K T B S) (hc : R.rom.continuous = false) (qs : List (Snap K))
    (us : Option (List (Snap K))) (hus : ∀ V ∈ us, V.length = qs.length) (fitT fitB : Bool) (d : TrainData K)
    (hp : R.process qs none us fitT fitB = (R1, .ok d)) (tests' : List (RegCase K (Model K S))) (trains : List (BayesCase K S)) :
    bayesDiscCases sqrt margin numTest tests us R1.rom d = .ok (tests', trains) ↔
      (∃ es, Forall₂ (fun q e => R1.rom.encode1 q = .ok e) qs es ∧
        Forall₂ (fun (x : Snap K × PredInput K) c => ∃ Y, x.1.initCols = .ok Y ∧
          bayesDiscTrain sqrt margin numTest Y x.2 = .ok c) (zip es (predInputs qs.length us)) trains) ∧
      Forall₂ (fun (t : DiscTest K) c => ∃ q, R1.rom.encode1 (.vec t.ic) = .ok q ∧ c = t.case q) tests tests' := by
  obtain ⟨-, es, h1, h2, -, -⟩ := (C69_discrete R R1 hc qs us fitT fitB d).1 hp
  have hlen : d.states.length = qs.length := by rw [← h2.length_eq, h1.length_eq]
  have hpl : (predInputs qs.length us : List (PredInput K)).length = qs.length := by
    cases us with
    | none => simp [predInputs]
    | some V => simp [predInputs, hus V rfl]
  have ht : R1.rom.discTests tests = .ok tests' ↔
      Forall₂ (fun (t : DiscTest K) c => ∃ q, R1.rom.encode1 (.vec t.ic) = .ok q ∧ c = t.case q) tests tests' := by
    rw [Rom.discTests, mapM_ok_forall2]
    have : (fun (t : DiscTest K) (c : RegCase K (Model K S)) => (R1.rom.encode1 (.vec t.ic)).map t.case = .ok c) =
        fun t c => ∃ q, R1.rom.encode1 (.vec t.ic) = .ok q ∧ c = t.case q := by
      funext t c
      cases R1.rom.encode1 (.vec t.ic) with
      | error e => simp [Except.map]
      | ok q => simp [Except.map, eq_comm]
    rw [this]
  have htr : ((zip d.states (predInputs d.states.length us)).mapM fun x => bayesDiscTrain sqrt margin numTest x.1 x.2)
      = .ok trains ↔ Forall₂ (fun (x : Snap K × PredInput K) (c : BayesCase K S) => ∃ Y, x.1.initCols = .ok Y ∧
          bayesDiscTrain sqrt margin numTest Y x.2 = .ok c) (zip es (predInputs qs.length us)) trains := by
    rw [mapM_ok_forall2, hlen]
    generalize (predInputs qs.length us : List (PredInput K)) = ps at hpl
    have hle : ps.length = es.length := by rw [hpl, h1.length_eq]
    clear hp h1 hlen ht hpl
    generalize d.states = ys at h2
    induction h2 generalizing ps trains with
    | nil => simp
    | @cons e y es ys h _ ih =>
      cases ps with
      | nil => simp at hle
      | cons p ps =>
        simp only [zip_cons_cons]
        cases trains with
        | nil => simp
        | cons c trains =>
          have h3 := ih trains ps (by simpa using hle)
          rw [forall₂_cons, forall₂_cons]
          refine and_congr ?_ h3
          simp only [h, Except.ok.injEq, exists_eq_left']
  simp only [bayesDiscCases]
  cases hm : (zip d.states (predInputs d.states.length us)).mapM fun x =>
      (bayesDiscTrain sqrt margin numTest x.1 x.2 : Except Err (BayesCase K S)) with
  | error e =>
    simp only [reduceCtorEq, false_iff, not_and, forall_exists_index]
    rintro es' ⟨g1, g2⟩
    have : es' = es := right_unique_forall₂' (fun a b c (h1 : R1.rom.encode1 a = .ok b)
      (h2 : R1.rom.encode1 a = .ok c) => Except.ok.inj (h1.symm.trans h2)) g1 h1
    subst this
    rw [← htr, hm] at g2
    cases g2
  | ok tr =>
    cases hx : R1.rom.discTests (S := S) tests with
    | error e =>
      simp only [Except.map, reduceCtorEq, false_iff, not_and]
      intro _ g
      rw [← ht, hx] at g
      cases g
    | ok ts =>
      simp only [Except.map, Except.ok.injEq, Prod.mk.injEq]
      rw [← ht, hx, Except.ok.injEq]
      constructor
      · rintro ⟨rfl, rfl⟩
        exact ⟨⟨es, h1, htr.1 hm⟩, rfl⟩
      · rintro ⟨⟨es', g1, g2⟩, rfl⟩
        have : es' = es := right_unique_forall₂' (fun a b c (h1 : R1.rom.encode1 a = .ok b)
          (h2 : R1.rom.encode1 a = .ok c) => Except.ok.inj (h1.symm.trans h2)) g1 h1
        subst this
        rw [← htr, hm] at g2
        exact ⟨rfl, Except.ok.inj g2⟩

/-- **C125.** The training trajectories and test cases of `fit_regselect_continuous`, with the stability limits, the input
functions and the extended time domains. -/
theorem C125_continuous_cases [Field K] [LinearOrder K] [FloorRing K] (sim : Integrator K S) (p2 : PNorm K)
    (margin testTime : K) (tests : List (ContTest K)) (qs : List (Snap K)) (us : Option (List (K → List K)))
    (ts : List (List K)) (R : Rom K T B) (d : TrainData K) (tests' : List (RegCase K (Model K S))) (trains : List (BayesCase K S)) :
    bayesContCases sim p2 margin testTime tests qs us ts R d = .ok (tests', trains) ↔
      (∃ es Ls ts', Forall₂ (fun q e => R.encode1 q = .ok e) qs es ∧
        Forall₂ (fun e L => snapLimit margin e = .ok L) es Ls ∧
        Forall₂ (fun t t' => extendTimes testTime t = .ok t') ts ts' ∧
        trains = (zip (zip es Ls) (zip (us.elim (replicate qs.length none) (·.map some)) ts')).map
            fun x => bayesContTrain sim p2 x.1.1 x.1.2 x.2.1 x.2.2) ∧
      Forall₂ (fun (t : ContTest K) c => ∃ q, R.encode1 (.vec t.ic) = .ok q ∧ c = t.case sim q) tests tests' := by
  have ht : R.contTests sim tests = .ok tests' ↔
      Forall₂ (fun (t : ContTest K) c => ∃ q, R.encode1 (.vec t.ic) = .ok q ∧ c = t.case sim q) tests tests' := by
    rw [Rom.contTests, mapM_ok_forall2]
    have : (fun (t : ContTest K) (c : RegCase K (Model K S)) => (R.encode1 (.vec t.ic)).map (t.case sim) = .ok c) =
        fun t c => ∃ q, R.encode1 (.vec t.ic) = .ok q ∧ c = t.case sim q := by
      funext t c
      cases R.encode1 (.vec t.ic) with
      | error e => simp [Except.map]
      | ok q => simp [Except.map, eq_comm]
    rw [this]
  rw [← ht]
  simp only [← mapM_ok_forall2]
  simp only [bayesContCases]
  cases h1 : qs.mapM R.encode1 with
  | error e => simp
  | ok es =>
    have hl : es.length = qs.length := (mapM_ok_forall2.1 h1).length_eq.symm
    simp only [Except.ok.injEq]
    cases h2 : es.mapM (snapLimit margin) with
    | error e =>
      simp only [reduceCtorEq, false_iff, not_and, forall_exists_index]
      rintro es' Ls ts' ⟨rfl, h, -⟩
      rw [h2] at h
      cases h
    | ok Ls =>
      cases h3 : R.contTests (S := S) sim tests with
      | error e => simp
      | ok tests'' =>
        cases h4 : ts.mapM (extendTimes testTime) with
        | error e => simp
        | ok ts'' =>
          simp only [Except.ok.injEq, Prod.mk.injEq]
          constructor
          · rintro ⟨rfl, rfl⟩
            exact ⟨⟨es, Ls, ts'', rfl, h2, rfl, by rw [hl]⟩, rfl⟩
          · rintro ⟨⟨es', Ls', ts', rfl, g2, rfl, rfl⟩, rfl⟩
            rw [h2] at g2
            cases g2
            exact ⟨rfl, by rw [hl]⟩


/-- **C125.** What a training trajectory asks of draws in `fit_regselect_continuous`, if the integration gives numbers: the
solution must not break off and must stay near the snapshots; the error is the relative norm in time of the mean of the
draws over the times of the snapshots. -/
theorem C125_continuous_trajectory [Field K] [LinearOrder K] (sim : Integrator K S) (p2 : PNorm K) (margin : K) (k : Nat)
    (rows : List (List K)) (L0 : Val K) (hL0 : snapLimit margin (.mat k rows) = .ok L0)
    (u : Option (K → List K)) (t : List K) :
    (bayesContTrain sim p2 (.mat k rows) L0 u t).predict = (fun M => sim M ((Snap.mat k rows).columnList.headD []) t u) ∧
    (∀ L : List (List K), (∀ q ∈ L, q.length = rows.length) → L ≠ [] →
      ((bayesContTrain sim p2 (.mat k rows) L0 u t).unstable (finiteTraj L) = .ok false ↔
        L.length = t.length ∧ StaysNear rows.length (Snap.mat k rows).columnList margin L)) ∧
    ∀ (Ls : List (List (List K))) (err : Val K), Ls ≠ [] →
      (∀ L ∈ Ls, k ≤ L.length ∧ ∀ q ∈ L, q.length = rows.length) →
      (bayesContTrain sim p2 (.mat k rows) L0 u t).error (Ls.map finiteTraj) = .ok err →
      ∃ mean, IsMeanOf k rows.length Ls mean ∧
        (LpError (.fin p2) (.times (t.take k)) (.mat rows.length (Snap.mat k rows).columnList)
          (.mat rows.length mean)).map Prod.snd = .ok err := by
  have hlen : (Snap.mat k rows).columnList.length = k := by
    simp [Snap.columnList, Snap.toArg, atleast2d, transpose]
  have hclen : ∀ q ∈ (Snap.mat k rows).columnList, q.length = rows.length := by
    intro q hq
    simp only [Snap.columnList, Snap.toArg, atleast2d, transpose, mem_map, mem_range] at hq
    obtain ⟨j, -, rfl⟩ := hq
    simp
  have hlim : stabilityLimit rows.length margin (Snap.mat k rows).columnList = .ok L0 := hL0
  refine ⟨rfl, ?_, ?_⟩
  · intro L hL hne
    simp only [bayesContTrain, unit_snap_cols]
    generalize (Snap.mat k rows).columnList = cols at *
    obtain ⟨D, hD, hL0'⟩ := stabilityLimit_ok _ _ _ hclen _ hlim
    obtain ⟨q1, hq1, i1, hi1, -⟩ := hD.2
    have hdne : (finiteTraj L).dists (meanCol rows.length cols) ≠ [] := by
      obtain ⟨q, L', rfl⟩ := exists_cons_of_ne_nil hne
      intro h0
      simp only [Traj.dists, finiteTraj, map_cons, flatten_cons, append_eq_nil_iff] at h0
      have h1 := congrArg length h0.1
      have := hL q (by simp)
      simp only [meanCol_eq, length_zipWith, length_map, length_range, length_nil, this] at h1
      omega
    have hfl : (finiteTraj L).length = L.length := by simp [finiteTraj]
    by_cases hl : L.length = t.length
    · have hd : unstableCont (meanCol rows.length cols) L0 t.length (finiteTraj L) =
          unstableDisc (meanCol rows.length cols) L0 (finiteTraj L) := by
        have := (finite_iff _).2 (finiteTraj_finite L)
        simp only [unstableCont, unstableDisc, hfl, hl, ne_eq, not_true_eq_false, if_false, this, Bool.false_eq_true]
      rw [hd]
      obtain ⟨s1, s2, -⟩ := C49_discrete_stable (meanCol rows.length cols) (finiteTraj L) hdne
      rcases hL0' with ⟨h0, rfl⟩ | ⟨h0, rfl⟩
      · rw [s2]
        exact ⟨fun _ => ⟨hl, D, hD, Or.inl h0⟩, fun _ => finiteTraj_finite L⟩
      · rw [s1, finiteTraj_within _ _ _ hL]
        constructor
        · rintro ⟨-, h⟩; exact ⟨hl, D, hD, Or.inr h⟩
        · rintro ⟨-, E, hE, h⟩
          have := isDeviation_unique hE hD
          subst this
          exact ⟨finiteTraj_finite L, h.resolve_left h0⟩
    · simp [unstableCont, hfl, hl]
  · intro Ls err hne hsh herr
    have hne' : (Ls.map finiteTraj).isEmpty = false := by
      cases Ls with
      | nil => exact absurd rfl hne
      | cons a l => rfl
    have hn1 : (Ls.map finiteTraj).any (fun sol => (sol.take k).any fun c => c.any fun x => decide (x = Val.nan)) = false := by
      simp only [any_map, any_eq_false]
      intro L _
      simp [finiteTraj, ← map_take]
    have hn2 : (Ls.map finiteTraj).any (fun sol => (sol.take k).any fun c => c.any fun x : Val K => !x.isFinite) = false := by
      simp only [any_map, any_eq_false]
      intro L _
      have := (finite_iff _).2 (finiteTraj_finite (L.take k))
      simp only [finiteTraj, map_take] at this
      simp only [Function.comp_apply, finiteTraj]
      rw [this]
      simp
    simp only [bayesContTrain, unit_snap_cols, bayesContError, hlen, hne', hn1, hn2, Bool.false_eq_true, if_false, map_map]
      at herr
    have hcomp : ((fun sol : Traj K => Traj.nums (sol.take k)) ∘ finiteTraj) = fun L : List (List K) => L.take k := by
      funext L
      have : (finiteTraj L).take k = finiteTraj (L.take k) := by rw [finiteTraj, finiteTraj, map_take]
      simp only [Function.comp_apply, this, finiteTraj_nums]
    rw [hcomp] at herr
    refine ⟨_, ?_, herr⟩
    obtain ⟨m1, m2, m3⟩ := meanDraws_isMean k rows.length (Ls.map fun L => L.take k)
      (by simpa using hne) (by
        intro x hx
        obtain ⟨L, hL, rfl⟩ := mem_map.mp hx
        obtain ⟨a1, a2⟩ := hsh L hL
        exact ⟨by rw [length_take]; omega, fun q hq => a2 q (mem_of_mem_take hq)⟩)
    refine ⟨m1, m2, fun j i hj hi => ?_⟩
    rw [m3 j i hj hi, map_map, length_map]
    congr 2
    refine map_congr_left fun L _ => ?_
    simp only [Function.comp_apply, getD_eq_getElem?_getD, getElem?_take, if_pos hj]

/-- **C125.** After `fit_regselect_discrete` of a Bayesian reduced-order model, for every training trajectory the requested
number of models was drawn from the posterior that is set, one after the other; each of them predicts the trajectory, the
prediction stays near the training data also in the test iterations, and the mean of the predictions has an error. -/
theorem C125_discrete_stable [Field K] [LinearOrder K] (L : NormalLib K G) (I : SolverI K S) (Y : BayesI K S)
    {setReg : S → Point K → S × Except Err Unit} {cfg : S → C} (Sr : Search K) (hO : Overwrites setReg cfg)
    (ho : ∀ st, (Sr.optimiser st).Honest []) (draws : Nat) (sqrt : K → K) (c : Cands K) (R R' : BFRom K T B S G)
    (hint : R.base.model.intrusive = false) (s : S) (hs : R.base.model.solver = some s)
    (hcom : Commute I setReg (Y.reset s)) (states : TrainArg K) (inputs : Option (TrainArg K)) (fitT fitB only : Bool)
    (numTest : Int) (margin : K) (tests : List (DiscTest K))
    (h : R.selectDiscrete L I Y setReg Sr draws sqrt c states inputs fitT fitB only numTest margin tests = (R', .ok ())) :
    ∃ qs us es P, fixLists states none inputs = .ok (qs, none, us) ∧
      Forall₂ (fun q e => R'.base.rom.encode1 q = .ok e) qs es ∧ R'.posterior = some P ∧
      ∀ x ∈ zip es (predInputs qs.length us), x.1.WF → ∃ (A A' : BRom K S G) (Ms : List (Model K S))
        (Ls : List (List (List K))), A.posterior = some P ∧ Draws L A Ms A' ∧ Ms.length = draws ∧
        Forall₂ (fun M L => M.predict (x.1.columnList.headD []) (x.1.columnList.length - 1 + numTest.toNat : Nat) x.2 = .ok L ∧
          StaysNear x.1.nrows x.1.columnList.dropLast margin L) Ms Ls := by
  obtain ⟨qs, us, R1, d, tests', trains, h1, h2, h3, h4, w, s', P, -, k2, -, k4, -⟩ :=
    C125_discrete L I Y Sr hO ho draws sqrt c R R' hint s hs hcom states inputs fitT fitB only numTest margin tests h
  rw [BFRom.selectDiscrete] at h
  have hcd : R.base.rom.continuous = false := by
    cases hc : R.base.rom.continuous with
    | false => rfl
    | true => rw [hc, if_pos rfl] at h; cases h
  rw [hcd, if_neg (by simp), h1] at h
  simp only at h
  have hus : ∀ V ∈ us, V.length = qs.length := by
    intro V hV
    cases hV
    by_contra hne
    split at h
    · cases h
    · rw [checkSelInputs, if_pos hne] at h
      cases h
  obtain ⟨⟨es, g1, g2⟩, -⟩ := (C125_discrete_cases sqrt margin numTest.toNat tests R.base R1 hcd qs us hus fitT fitB d h2
    tests' trains).1 h4
  refine ⟨qs, us, es, P, h1, by rw [h3]; exact g1, k2, ?_⟩
  intro x hx hWF
  obtain ⟨i, hi, rfl⟩ := mem_iff_getElem.mp hx
  have hi2 : i < trains.length := by rw [← g2.length_eq]; exact hi
  obtain ⟨Y, g3, g4⟩ := (forall₂_iff_get.mp g2).2 i hi hi2
  simp only [get_eq_getElem] at g3 g4
  obtain ⟨A, A', Ms, Qs, e, a1, a2, a3, a4, -⟩ := k4 _ (getElem_mem hi2)
  have hst := (C125_discrete_trajectory sqrt margin numTest.toNat _ Y hWF g3 _ _ g4).1
  generalize (zip es (predInputs qs.length us))[i] = x at hst ⊢
  obtain ⟨Ls, hLs⟩ : ∃ Ls, Forall₂ (fun (M : Model K S) L => M.predict (x.1.columnList.headD [])
      (x.1.columnList.length - 1 + numTest.toNat : Nat) x.2 = .ok L ∧
      StaysNear x.1.nrows x.1.columnList.dropLast margin L) Ms Ls := by
    clear a2 a3
    induction a4 with
    | nil => exact ⟨[], .nil⟩
    | cons h _ ih =>
      obtain ⟨Ls, hLs⟩ := ih
      obtain ⟨L, l1, l2, -⟩ := (hst _ _).1 h
      exact ⟨L :: Ls, .cons ⟨l1, l2⟩ hLs⟩
  exact ⟨A, A', Ms, Ls, a1, a2, a3, hLs⟩

/-- A training trajectory with one test iteration, stability limits, and the mean of two draws. -/
example : (∃ c : BayesCase ℚ (Tik (Mat ℚ) ℚ), bayesDiscTrain RegEx.root 10 1 (.mat 2 [[1, 3]]) .none = .ok c) ∧
    (Snap.mat 3 [[(1 : ℚ), 3, 9]]).initCols = .ok (.mat 2 [[1, 3]]) ∧ snapLimit (10 : ℚ) (.mat 2 [[1, 3]]) = .ok (.num 10) ∧
    meanDraws [[[(1 : ℚ)], [2]], [[3], [5]]] = [[2], [7 / 2]] := by
  have h : stabilityLimit 1 (10 : ℚ) (transpose 2 [[1, 3]]) = .ok (.num 10) := by decide +kernel
  refine ⟨⟨bayesDiscreteCase RegEx.root 1 (.num 10) (transpose 2 [[1, 3]]) 1 .none, ?_⟩, rfl, by decide +kernel,
    by decide +kernel⟩
  change (stabilityLimit 1 (10 : ℚ) (transpose 2 [[1, 3]])).map _ = _
  rw [h]
  rfl

/-- C125 for the selection of `BayesRomEx`. -/
example : ∃ P, (BayesRomEx.shrinking [3, 1, 2]).1.posterior = some P := by
  obtain ⟨-, -, -, P, -, -, h, -⟩ := C125_discrete_stable BayesSelEx.meanLib RegEx.tik BayesSelEx.bayes
    (setReg := tikSetReg (RegEx.factory 1))
    RegEx.search (tikSetReg_overwrites _) (fun _ => trivial) 2 RegEx.root (.nums [3, 1, 2]) (BayesRomEx.bare false)
    (BayesRomEx.shrinking [3, 1, 2]).1 rfl
    ⟨none, .normal, none, none⟩ rfl (tik_commute _ _ _ _ rfl) (.one (.mat 3 [[4, 3, 9 / 4]])) none true true true 1 10
    [⟨[1], 4, .none, some 2⟩] (Prod.ext (x := BayesRomEx.shrinking [3, 1, 2]) rfl (by decide +kernel))
  exact ⟨P, h⟩

end Opinf
