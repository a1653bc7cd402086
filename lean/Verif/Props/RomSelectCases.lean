import Verif.Lemmas.MonoFit
import Verif.Props.Predict
import Verif.Props.RomSelect

/-!
# C72, C73: what the regularization selection of a reduced-order model compares and checks
-/

namespace Opinf

open List

variable {K T B S C : Type}

/-! ### Specification -/

/-- The mean of the entries with index `i`. -/
def rowMean [Field K] (cols : List (List K)) (i : Nat) : K := (cols.map fun q => q.getD i 0).sum / (cols.length : K)

/-- The largest deviation of an entry from the mean over time. -/
def IsDeviation [Field K] [LinearOrder K] (r : Nat) (cols : List (List K)) (D : K) : Prop :=
  (∀ q ∈ cols, ∀ i < r, |q.getD i 0 - rowMean cols i| ≤ D) ∧ ∃ q ∈ cols, ∃ i < r, |q.getD i 0 - rowMean cols i| = D

/-- All entries of a prediction are within `margin` times the largest deviation of the mean; if that is zero, nothing is
required. -/
def StaysNear [Field K] [LinearOrder K] (r : Nat) (cols : List (List K)) (margin : K) (L : List (List K)) : Prop :=
  ∃ D, IsDeviation r cols D ∧
    (margin * D = 0 ∨ ∀ q ∈ L, ∀ i < r, |q.getD i 0 - rowMean cols i| ≤ margin * D)

/-! ### Helpers -/

theorem meanCol_eq [Field K] (r : Nat) (Q : List (List K)) : meanCol r Q = (range r).map (rowMean Q) := by
  simp only [meanCol, transpose, map_map]
  rfl

theorem foldl_max_mem [LinearOrder K] (l : List K) : ∀ a : K, l.foldl max a = a ∨ l.foldl max a ∈ l := by
  induction l with
  | nil => intro a; simp
  | cons b l ih =>
    intro a
    simp only [foldl_cons, mem_cons]
    rcases ih (max a b) with h | h
    · rcases max_choice a b with h' | h'
      · left; rw [h, h']
      · right; left; rw [h, h']
    · right; right; exact h

/-- The stability limit is the margin times the largest deviation. -/
theorem stabilityLimit_ok [Field K] [LinearOrder K] (r : Nat) (margin : K) (Q : List (List K))
    (hQ : ∀ q ∈ Q, q.length = r) (L : Val K) (h : stabilityLimit r margin Q = .ok L) :
    ∃ D, IsDeviation r Q D ∧ ((margin * D = 0 ∧ L = .inf) ∨ (margin * D ≠ 0 ∧ L = .num (margin * D))) := by
  have hmem : ∀ x, x ∈ (Q.map fun col => zipWith (fun a b => |b - a|) (meanCol r Q) col).flatten ↔
      ∃ q ∈ Q, ∃ i < r, x = |q.getD i 0 - rowMean Q i| := by
    intro x
    simp only [mem_flatten, mem_map, exists_exists_and_eq_and]
    refine exists_congr fun q => and_congr_right fun hq => ?_
    rw [mem_iff_getElem?]
    simp only [getElem?_zipWith, meanCol_eq, getElem?_map]
    constructor
    · rintro ⟨i, hi⟩
      by_cases hir : i < r
      · refine ⟨i, hir, ?_⟩
        rw [getElem?_range hir, getElem?_eq_getElem (by rw [hQ q hq]; exact hir)] at hi
        simp only [Option.map_some, Option.some.injEq] at hi
        rw [← hi, getD_eq_getElem?_getD, getElem?_eq_getElem (by rw [hQ q hq]; exact hir), Option.getD_some]
      · rw [getElem?_eq_none (by simpa using hir)] at hi
        simp at hi
    · rintro ⟨i, hir, rfl⟩
      refine ⟨i, ?_⟩
      rw [getElem?_range hir, getD_eq_getElem?_getD, getElem?_eq_getElem (by rw [hQ q hq]; exact hir)]
      simp
  simp only [stabilityLimit] at h
  generalize hl : (Q.map fun col => zipWith (fun a b => |b - a|) (meanCol r Q) col).flatten = l at h hmem
  cases l with
  | nil => cases h
  | cons d ds =>
    simp only at h
    refine ⟨ds.foldl max d, ⟨?_, ?_⟩, ?_⟩
    · intro q hq i hi
      have := (hmem _).2 ⟨q, hq, i, hi, rfl⟩
      obtain ⟨h1, h2⟩ := le_foldl_max' ds d
      rcases mem_cons.1 this with h3 | h3
      · rw [h3]; exact h1
      · exact h2 _ h3
    · have : ds.foldl max d ∈ d :: ds := by
        rcases foldl_max_mem ds d with h | h
        · rw [h]; exact mem_cons_self
        · exact mem_cons_of_mem _ h
      obtain ⟨q, hq, i, hi, he⟩ := (hmem _).1 this
      exact ⟨q, hq, i, hi, he.symm⟩
    · split at h
      · rename_i h0
        exact Or.inl ⟨h0, (Except.ok.inj h).symm⟩
      · rename_i h0
        exact Or.inr ⟨h0, (Except.ok.inj h).symm⟩

theorem isDeviation_unique [Field K] [LinearOrder K] {r : Nat} {Q : List (List K)} {D E : K} (h : IsDeviation r Q D)
    (h' : IsDeviation r Q E) : D = E := by
  obtain ⟨h1, q, hq, i, hi, h2⟩ := h
  obtain ⟨h3, q', hq', j, hj, h4⟩ := h'
  exact le_antisymm (h2 ▸ h3 q hq i hi) (h4 ▸ h1 q' hq' j hj)

theorem finiteTraj_finite (L : List (List K)) : (finiteTraj L).Finite := by
  intro col hcol x hx
  obtain ⟨c, -, rfl⟩ := mem_map.1 hcol
  obtain ⟨y, -, rfl⟩ := mem_map.1 hx
  exact ⟨y, rfl⟩

theorem finiteTraj_within [Field K] [LinearOrder K] (r : Nat) (Q L : List (List K)) (hL : ∀ q ∈ L, q.length = r) (b : K) :
    (finiteTraj L).Within (meanCol r Q) b ↔ ∀ q ∈ L, ∀ i < r, |q.getD i 0 - rowMean Q i| ≤ b := by
  constructor
  · intro h q hq i hi
    refine h (q.map .num) (mem_map.2 ⟨q, hq, rfl⟩) i _ _ ?_ ?_
    · rw [getElem?_map, getElem?_eq_getElem (by rw [hL q hq]; exact hi), getD_eq_getElem?_getD,
        getElem?_eq_getElem (by rw [hL q hq]; exact hi)]
      rfl
    · rw [meanCol_eq, getElem?_map, getElem?_range hi]
      rfl
  · intro h col hcol i y a h1 h2
    obtain ⟨q, hq, rfl⟩ := mem_map.1 hcol
    have hi : i < r := by
      rw [meanCol_eq, getElem?_map] at h2
      by_contra hi
      rw [getElem?_eq_none (by simpa using hi)] at h2
      cases h2
    have := h q hq i hi
    rw [getElem?_map, getElem?_eq_getElem (by rw [hL q hq]; exact hi)] at h1
    rw [meanCol_eq, getElem?_map, getElem?_range hi] at h2
    rw [getD_eq_getElem?_getD, getElem?_eq_getElem (by rw [hL q hq]; exact hi)] at this
    simp only [Option.map_some, Option.some.injEq, Val.num.injEq] at h1 h2
    rw [← h1, ← h2]
    exact this

theorem finiteTraj_nums [Zero K] (L : List (List K)) : (finiteTraj L).nums = L := by
  simp only [finiteTraj, Traj.nums, map_map]
  conv_rhs => rw [← map_id L]
  apply map_congr_left
  intro q _
  simp only [Function.comp_apply, map_map, id]
  conv_rhs => rw [← map_id q]
  apply map_congr_left
  intro x _
  rfl

theorem predict_columns [CommSemiring K] {M : Model K S} {q0 : List K} {n : Int} {inputs : PredInput K}
    {L : List (List K)} (h : M.predict q0 n inputs = .ok L) : ∀ q ∈ L, q.length = q0.length := by
  rw [C15_predict_iff] at h
  obtain ⟨a1, a2, a3, a4, a5, a6, a7⟩ := h
  have hlen : ∀ j, j < n.toNat → (L.getD j []).length = q0.length := by
    intro j
    induction j with
    | zero => intro _; rw [a6]
    | succ j ih =>
      intro hj
      rw [← ih (by omega)]
      exact rhs_length M (a7 j hj)
  intro q hq
  obtain ⟨j, hj, rfl⟩ := mem_iff_getElem.mp hq
  rw [← getD_eq_getElem L [] hj]
  exact hlen j (by omega)

/-! ### C72: the training trajectories -/

/-- **C72.** What a training trajectory with encoded snapshots `e_0, .., e_{k-1}` contributes in
`fit_regselect_discrete` with `numTest` test iterations: the model is started from `e_0` and gives `k - 1 + numTest` states;
these must stay near the snapshots `e_0, .., e_{k-2}`; and the error is the relative Frobenius error of the first `k - 1`
of them with respect to these snapshots. -/
theorem C72_discrete_trajectory [Field K] [LinearOrder K] (sqrt : K → K) (margin : K) (numTest : Nat) (e Y : Snap K)
    (he : e.WF) (hY : e.initCols = .ok Y) (U : PredInput K) (c : TrainCase K (Model K S))
    (hc : discTrain sqrt margin numTest Y U = .ok c) (M : Model K S) (err : Val K) :
    c.Scores M err ↔ ∃ L, M.predict (e.columnList.headD []) (e.columnList.length - 1 + numTest : Nat) U = .ok L ∧
      StaysNear e.nrows e.columnList.dropLast margin L ∧
      (frobeniusError sqrt (.mat e.nrows e.columnList.dropLast) (.mat e.nrows (L.take (e.columnList.length - 1)))).map
        Prod.snd = .ok err := by
  obtain ⟨hYW, hcols⟩ := initCols_ok he hY
  cases e with
  | vec xs => cases hY
  | mat k rows =>
    cases Y with
    | vec xs => cases hY
    | mat k' rows' =>
      have hrow : rows'.length = rows.length := by
        simp only [Snap.initCols, Except.ok.injEq, Snap.mat.injEq] at hY
        rw [← hY.2, length_map]
      have hn : (Snap.mat k rows).nrows = rows.length := rfl
      have hcl : transpose k' rows' = (Snap.mat k rows).columnList.dropLast := hcols
      have hclen : ∀ q ∈ (Snap.mat k rows).columnList.dropLast, q.length = rows.length := by
        rw [← hcl, ← hrow]
        intro q hq
        simp only [transpose, mem_map, mem_range] at hq
        obtain ⟨j, -, rfl⟩ := hq
        simp
      simp only [discTrain, hrow, hcl] at hc
      rw [hn]
      generalize (Snap.mat k rows).columnList = cols at *
      clear hcols hcl hYW
      cases hlim : stabilityLimit rows.length margin cols.dropLast with
      | error x => rw [hlim] at hc; cases hc
      | ok L0 =>
        rw [hlim] at hc
        cases hc
        obtain ⟨D, hD, hL0⟩ := stabilityLimit_ok _ _ _ hclen _ hlim
        obtain ⟨q1, hq1, i1, hi1, -⟩ := hD.2
        have hhead : cols.dropLast.headD [] = cols.headD [] ∧ (cols.headD []).length = rows.length := by
          cases cols with
          | nil => cases hq1
          | cons q cols =>
            cases cols with
            | nil => simp at hq1
            | cons q' cols =>
              simp only [dropLast_cons₂, headD_cons, true_and]
              exact hclen q (by simp)
        simp only [TrainCase.Scores, discreteCase, hhead.1, length_dropLast]
        cases hpr : M.predict (cols.headD []) (cols.length - 1 + numTest : Nat) U with
        | error x => simp [Except.map]
        | ok L =>
          have hLlen : ∀ q ∈ L, q.length = rows.length := by
            rw [← hhead.2]; exact predict_columns hpr
          have hp := hpr
          rw [C15_predict_iff] at hp
          obtain ⟨-, -, b1, -, b2, b3, -⟩ := hp
          have hLne : L ≠ [] := by
            rintro rfl
            simp at b2
            omega
          have hdne : (finiteTraj L).dists (meanCol rows.length cols.dropLast) ≠ [] := by
            obtain ⟨q, L', rfl⟩ := exists_cons_of_ne_nil hLne
            intro h0
            simp only [Traj.dists, finiteTraj, map_cons, flatten_cons, append_eq_nil_iff] at h0
            have h1 := congrArg length h0.1
            have := hLlen q (by simp)
            simp only [meanCol_eq, length_zipWith, length_map, length_range, length_nil, this] at h1
            omega
          have hst : unstableDisc (meanCol rows.length cols.dropLast) L0 (finiteTraj L) = .ok false ↔
              StaysNear rows.length cols.dropLast margin L := by
            obtain ⟨s1, s2, -⟩ := C49_discrete_stable (meanCol rows.length cols.dropLast) (finiteTraj L) hdne
            rcases hL0 with ⟨h0, rfl⟩ | ⟨h0, rfl⟩
            · rw [s2]
              exact ⟨fun _ => ⟨D, hD, Or.inl h0⟩, fun _ => finiteTraj_finite L⟩
            · rw [s1, finiteTraj_within _ _ _ hLlen]
              constructor
              · rintro ⟨-, h⟩; exact ⟨D, hD, Or.inr h⟩
              · rintro ⟨E, hE, h⟩
                have := isDeviation_unique hE hD
                subst this
                exact ⟨finiteTraj_finite L, h.resolve_left h0⟩
          simp only [Except.map, Except.ok.injEq]
          constructor
          · rintro ⟨_, rfl, h1, h2⟩
            rw [finiteTraj_nums] at h2
            exact ⟨L, rfl, hst.1 h1, h2⟩
          · rintro ⟨_, rfl, h1, h2⟩
            refine ⟨_, rfl, hst.2 h1, ?_⟩
            rw [finiteTraj_nums]
            exact h2

/-- **C72.** The training trajectories and test cases of `fit_regselect_discrete`: one training case for each
trajectory, made from its encoded snapshots and its inputs; and one test case for each given one, started from its
encoded initial conditions. -/
theorem C72_discrete_cases [Field K] [LinearOrder K] (sqrt : K → K) (margin : K) (numTest : Nat)
    (tests : List (DiscTest K)) (R R1 : FRom K T B S) (hc : R.rom.continuous = false) (qs : List (Snap K))
    (us : Option (List (Snap K))) (hus : ∀ V ∈ us, V.length = qs.length) (fitT fitB : Bool) (d : TrainData K)
    (hp : R.process qs none us fitT fitB = (R1, .ok d)) (tests' : List (RegCase K (Model K S))) (trains : List (TrainCase K (Model K S))) :
    discCases sqrt margin numTest tests us R1.rom d = .ok (tests', trains) ↔
      (∃ es, Forall₂ (fun q e => R1.rom.encode1 q = .ok e) qs es ∧
        Forall₂ (fun (x : Snap K × PredInput K) c => ∃ Y, x.1.initCols = .ok Y ∧
          discTrain sqrt margin numTest Y x.2 = .ok c) (zip es (predInputs qs.length us)) trains) ∧
      Forall₂ (fun (t : DiscTest K) c => ∃ q, R1.rom.encode1 (.vec t.ic) = .ok q ∧ c = t.case q) tests tests' := by
  obtain ⟨-, es, h1, h2, -, -⟩ := (C69_discrete R R1 hc qs us fitT fitB d).1 hp
  have hlen : d.states.length = qs.length := by rw [← h2.length_eq, h1.length_eq]
  have hpl : (predInputs qs.length us : List (PredInput K)).length = qs.length := by
    cases us with
    | none => simp [predInputs]
    | some V => simp [predInputs, hus V rfl]
  have ht : R1.rom.discTests tests = .ok tests' ↔
      Forall₂ (fun (t : DiscTest K) c => ∃ q, R1.rom.encode1 (.vec t.ic) = .ok q ∧ c = t.case q) tests tests' := by
    rw [Rom.discTests, mapM_ok_forall2]
    have : (fun (t : DiscTest K) (c : RegCase K (Model K S)) => (R1.rom.encode1 (.vec t.ic)).map t.case = .ok c) =
        fun t c => ∃ q, R1.rom.encode1 (.vec t.ic) = .ok q ∧ c = t.case q := by
      funext t c
      cases R1.rom.encode1 (.vec t.ic) with
      | error e => simp [Except.map]
      | ok q => simp [Except.map, eq_comm]
    rw [this]
  have htr : ((zip d.states (predInputs d.states.length us)).mapM fun x => discTrain sqrt margin numTest x.1 x.2)
      = .ok trains ↔ Forall₂ (fun (x : Snap K × PredInput K) (c : TrainCase K (Model K S)) => ∃ Y, x.1.initCols = .ok Y ∧
          discTrain sqrt margin numTest Y x.2 = .ok c) (zip es (predInputs qs.length us)) trains := by
    rw [mapM_ok_forall2, hlen]
    generalize (predInputs qs.length us : List (PredInput K)) = ps at hpl
    have hle : ps.length = es.length := by rw [hpl, h1.length_eq]
    clear hp h1 hlen ht hpl
    generalize d.states = ys at h2
    induction h2 generalizing ps trains with
    | nil => simp
    | @cons e y es ys h _ ih =>
      cases ps with
      | nil => simp at hle
      | cons p ps =>
        simp only [zip_cons_cons]
        cases trains with
        | nil => simp
        | cons c trains =>
          have h3 := ih trains ps (by simpa using hle)
          rw [forall₂_cons, forall₂_cons]
          refine and_congr ?_ h3
          simp only [h, Except.ok.injEq, exists_eq_left']
  simp only [discCases]
  cases hm : (zip d.states (predInputs d.states.length us)).mapM fun x =>
      (discTrain sqrt margin numTest x.1 x.2 : Except Err (TrainCase K (Model K S))) with
  | error e =>
    simp only [reduceCtorEq, false_iff, not_and, forall_exists_index]
    rintro es' ⟨g1, g2⟩
    have : es' = es := right_unique_forall₂' (fun a b c (h1 : R1.rom.encode1 a = .ok b)
      (h2 : R1.rom.encode1 a = .ok c) => Except.ok.inj (h1.symm.trans h2)) g1 h1
    subst this
    rw [← htr, hm] at g2
    cases g2
  | ok tr =>
    cases hx : R1.rom.discTests (S := S) tests with
    | error e =>
      simp only [Except.map, reduceCtorEq, false_iff, not_and]
      intro _ g
      rw [← ht, hx] at g
      cases g
    | ok ts =>
      simp only [Except.map, Except.ok.injEq, Prod.mk.injEq]
      rw [← ht, hx, Except.ok.injEq]
      constructor
      · rintro ⟨rfl, rfl⟩
        exact ⟨⟨es, h1, htr.1 hm⟩, rfl⟩
      · rintro ⟨⟨es', g1, g2⟩, rfl⟩
        have : es' = es := right_unique_forall₂' (fun a b c (h1 : R1.rom.encode1 a = .ok b)
          (h2 : R1.rom.encode1 a = .ok c) => Except.ok.inj (h1.symm.trans h2)) g1 h1
        subst this
        rw [← htr, hm] at g2
        exact ⟨rfl, Except.ok.inj g2⟩

/-- **C72.** The inputs on which the model is trained are the values of the input function at the times. -/
theorem C72_input_values [Zero K] (u : K → List K) (t : List K) (V : Snap K) (h : evalInputs u t = .ok V) :
    V.columnList = t.map u := by
  simp only [evalInputs] at h
  cases ht : t.map u with
  | nil => rw [ht] at h; cases h
  | cons c cs =>
    rw [ht] at h
    simp only at h
    split at h
    · rename_i hall
      cases h
      rw [← ht]
      simp only [all_eq_true, decide_eq_true_eq] at hall
      simp only [Snap.columnList, Snap.toArg, atleast2d]
      have hc : ∀ x ∈ t.map u, x.length = c.length := by
        rw [ht]
        intro x hx
        rcases mem_cons.1 hx with rfl | hx
        · rfl
        · exact hall x hx
      apply ext_getElem
      · simp [transpose]
      · intro i h1 h2
        have hi : i < t.length := by simpa [transpose] using h1
        simp only [transpose, getElem_map, getElem_range, map_map]
        apply ext_getElem
        · simp only [length_map, length_range]
          exact (hc (u t[i]) (mem_map.2 ⟨_, getElem_mem _, rfl⟩)).symm
        · intro j g1 g2
          simp only [getElem_map, getElem_range, Function.comp_apply]
          rw [getD_eq_getElem _ _ (by simpa using hi)]
          simp only [getElem_map]
          rw [Function.comp_apply, getD_eq_getElem _ _ (by simpa using g2)]
    · cases h

/-- **C72.** Arguments that do not fit are refused before anything is changed. -/
theorem C72_refused [Field K] [LinearOrder K] (I : SolverI K S) (setReg : S → Point K → S × Except Err Unit)
    (G : Search K) (sqrt : K → K) (c : Cands K) (R : FRom K T B S) (states : TrainArg K) (inputs : Option (TrainArg K))
    (fitT fitB only : Bool) (numTest : Int) (margin : K) (tests : List (DiscTest K)) :
    let call := R.selectDiscrete I setReg G sqrt c states inputs fitT fitB only numTest margin tests
    (R.rom.continuous = true → call = (R, .error .attribute)) ∧
    (R.model.solver = none → call = (R, .error .attribute)) ∧
    (R.rom.continuous = false → R.model.solver.isSome = true →
      ∀ qs us, fixLists states none inputs = .ok (qs, none, us) →
      (numTest < 0 → call = (R, .error .value)) ∧
      (0 ≤ numTest → (∀ V ∈ us, V.length ≠ qs.length → call = (R, .error .dimensionality)) ∧
        (∀ V ∈ us, V.length = qs.length → (∃ x ∈ zip qs V, x.2.ncolumns < x.1.ncolumns + numTest.toNat) →
          call = (R, .error .value)) ∧
        (us = none → R.model.hasInputs = true → call = (R, .error .value)))) := by
  intro call
  refine ⟨fun h => ?_, fun h => ?_, fun hc hs qs us hl => ⟨fun hn => ?_, fun hn => ⟨?_, ?_, ?_⟩⟩⟩
  · simp only [call, FRom.selectDiscrete, h, if_true]
  · simp only [call, FRom.selectDiscrete, h, Option.isNone_none, if_true, ite_self]
  · have hs' : R.model.solver.isNone = false := by cases h : R.model.solver <;> simp_all
    simp only [call, FRom.selectDiscrete, hc, hs', Bool.false_eq_true, if_false, hl, hn, if_true]
  · intro V hV hne
    cases hV
    have hs' : R.model.solver.isNone = false := by cases h : R.model.solver <;> simp_all
    simp only [call, FRom.selectDiscrete, hc, hs', Bool.false_eq_true, if_false, hl, not_lt.mpr hn, checkSelInputs, hne,
      ne_eq, not_false_eq_true, if_true]
  · rintro V hV hlen ⟨x, hx, hlt⟩
    cases hV
    have hs' : R.model.solver.isNone = false := by cases h : R.model.solver <;> simp_all
    have hany : (zip qs V).any (fun x => decide (x.2.ncolumns < x.1.ncolumns + numTest.toNat)) = true :=
      any_eq_true.mpr ⟨x, hx, by simpa using hlt⟩
    simp only [call, FRom.selectDiscrete, hc, hs', Bool.false_eq_true, if_false, hl, not_lt.mpr hn, checkSelInputs, hlen,
      ne_eq, not_true_eq_false, hany, if_true]
  · rintro rfl hi
    have hs' : R.model.solver.isNone = false := by cases h : R.model.solver <;> simp_all
    simp only [call, FRom.selectDiscrete, hc, hs', Bool.false_eq_true, if_false, hl, not_lt.mpr hn, checkSelInputs,
      FRom.selectLists, FRom.checkFitArgs, Option.isNone_none, Bool.and_false, Bool.false_and, hi, Bool.and_self,
      if_true]

end Opinf
