import Verif.Props.Post
import Verif.Props.RomSelectCases

/-!
# C72, C73: how far the regularization selection looks beyond the training data

`num_test_iters` is documented as the "number of iterations after the training data in which to require model
stability", `test_time_length` as the "amount of time after the training regime in which to require model stability".
-/

namespace Opinf

open List

variable {K T B S C : Type}

/-! ### Time-continuous training trajectories -/

theorem unit_snap_cols (k : Nat) (rows : List (List K)) [Zero K] :
    (Snap.mat k rows).colsOf = (rows.length, (Snap.mat k rows).columnList) := rfl

/-- **C72.** What a training trajectory with encoded snapshots `e_0, .., e_{k-1}` contributes in
`fit_regselect_continuous`, if the integration gives numbers: the solution must not break off, it must stay near the
snapshots, and the error is the relative norm in time of the first `k` states with respect to the snapshots. -/
theorem C72_continuous_trajectory [Field K] [LinearOrder K] (sim : Integrator K S) (p2 : PNorm K) (margin : K) (k : Nat)
    (rows : List (List K)) (L0 : Val K) (hL0 : snapLimit margin (.mat k rows) = .ok L0)
    (u : Option (K → List K)) (t : List K) (M : Model K S) (L : List (List K))
    (hs : sim M ((Snap.mat k rows).columnList.headD []) t u = .ok (finiteTraj L))
    (hL : ∀ q ∈ L, q.length = rows.length) (hne : L ≠ []) (err : Val K) :
    (contTrain sim p2 (.mat k rows) L0 u t).Scores M err ↔ L.length = t.length ∧
      StaysNear rows.length (Snap.mat k rows).columnList margin L ∧
      (LpError (.fin p2) (.times (t.take k)) (.mat rows.length (Snap.mat k rows).columnList)
        (.mat rows.length (L.take k))).map Prod.snd = .ok err := by
  have hlen : (Snap.mat k rows).columnList.length = k := by
    simp [Snap.columnList, Snap.toArg, atleast2d, transpose]
  have hclen : ∀ q ∈ (Snap.mat k rows).columnList, q.length = rows.length := by
    intro q hq
    simp only [Snap.columnList, Snap.toArg, atleast2d, transpose, mem_map, mem_range] at hq
    obtain ⟨j, -, rfl⟩ := hq
    simp
  have hlim : stabilityLimit rows.length margin (Snap.mat k rows).columnList = .ok L0 := hL0
  simp only [TrainCase.Scores, contTrain, unit_snap_cols, hs, Except.ok.injEq, exists_eq_left']
  generalize (Snap.mat k rows).columnList = cols at *
  obtain ⟨D, hD, hL0'⟩ := stabilityLimit_ok _ _ _ hclen _ hlim
  obtain ⟨q1, hq1, i1, hi1, -⟩ := hD.2
  have hdne : (finiteTraj L).dists (meanCol rows.length cols) ≠ [] := by
    obtain ⟨q, L', rfl⟩ := exists_cons_of_ne_nil hne
    intro h0
    simp only [Traj.dists, finiteTraj, map_cons, flatten_cons, append_eq_nil_iff] at h0
    have h1 := congrArg length h0.1
    have := hL q (by simp)
    simp only [meanCol_eq, length_zipWith, length_map, length_range, length_nil, this] at h1
    omega
  have hfl : (finiteTraj L).length = L.length := by simp [finiteTraj]
  have htk : (finiteTraj L).take cols.length = finiteTraj (L.take k) := by rw [hlen, finiteTraj, finiteTraj, map_take]
  have hfin := (finite_iff _).2 (finiteTraj_finite (L.take k))
  have hnan : (finiteTraj (L.take k)).any (fun c => c.any fun x => decide (x = Val.nan)) = false := by
    simp only [finiteTraj, any_map, any_eq_false]
    intro q _
    simp
  have hce : contError p2 rows.length cols t (finiteTraj L) =
      (LpError (.fin p2) (.times (t.take k)) (.mat rows.length cols) (.mat rows.length (L.take k))).map Prod.snd := by
    simp only [contError]
    rw [htk, hnan, hfin]
    simp only [ hnan, hfin, finiteTraj_nums, Bool.false_eq_true, if_false, hlen]
  rw [hce, ← and_assoc]
  refine and_congr_left fun _ => ?_
  by_cases hl : L.length = t.length
  · have hd : unstableCont (meanCol rows.length cols) L0 t.length (finiteTraj L) =
        unstableDisc (meanCol rows.length cols) L0 (finiteTraj L) := by
      have := (finite_iff _).2 (finiteTraj_finite L)
      simp only [unstableCont, unstableDisc, hfl, hl, ne_eq, not_true_eq_false, if_false, this, Bool.false_eq_true]
    rw [hd]
    obtain ⟨s1, s2, -⟩ := C49_discrete_stable (meanCol rows.length cols) (finiteTraj L) hdne
    rcases hL0' with ⟨h0, rfl⟩ | ⟨h0, rfl⟩
    · rw [s2]
      exact ⟨fun _ => ⟨hl, D, hD, Or.inl h0⟩, fun _ => finiteTraj_finite L⟩
    · rw [s1, finiteTraj_within _ _ _ hL]
      constructor
      · rintro ⟨-, h⟩; exact ⟨hl, D, hD, Or.inr h⟩
      · rintro ⟨-, E, hE, h⟩
        have := isDeviation_unique hE hD
        subst this
        exact ⟨finiteTraj_finite L, h.resolve_left h0⟩
  · simp [unstableCont, hfl, hl]

/-! ### C73: fully discrete models -/

/-- **C73**, true part: the model selected by `fit_regselect_discrete` predicts every training trajectory, and the
prediction stays near the training data up to `num_test_iters - 1` iterations after them: it has
`k - 1 + num_test_iters` states, where `k` is the number of snapshots. Missing: the last iteration. -/
theorem C73_discrete_partial [Field K] [LinearOrder K] (I : SolverI K S) {setReg : S → Point K → S × Except Err Unit}
    {cfg : S → C} (G : Search K) (hO : Overwrites setReg cfg) (ho : ∀ st, (G.optimiser st).Honest [])
    (sqrt : K → K) (c : Cands K) (R R' : FRom K T B S) (hint : R.model.intrusive = false) (s : S)
    (hs : R.model.solver = some s) (hcom : Commute I setReg s) (states : TrainArg K) (inputs : Option (TrainArg K))
    (fitT fitB only : Bool) (numTest : Int) (margin : K) (tests : List (DiscTest K))
    (h : R.selectDiscrete I setReg G sqrt c states inputs fitT fitB only numTest margin tests = (R', .ok ())) :
    0 ≤ numTest ∧ ∃ qs us es, fixLists states none inputs = .ok (qs, none, us) ∧
      Forall₂ (fun q e => R'.rom.encode1 q = .ok e) qs es ∧
      ∀ x ∈ zip es (predInputs qs.length us), x.1.WF → ∃ L,
        R'.model.predict (x.1.columnList.headD []) (x.1.columnList.length - 1 + numTest.toNat : Nat) x.2 = .ok L ∧
        L.length = x.1.columnList.length - 1 + numTest.toNat ∧
        StaysNear x.1.nrows x.1.columnList.dropLast margin L := by
  obtain ⟨qs, us, R1, d, tests', trains, h1, h2, h3, h4, w, s', v, -, -, -, ⟨-, errs, h5, -⟩, -, -⟩ :=
    C72_discrete I G hO ho sqrt c R R' hint s hs hcom states inputs fitT fitB only numTest margin tests h
  have hcd : R.rom.continuous = false := by
    cases hc : R.rom.continuous with
    | false => rfl
    | true => rw [((C72_refused I setReg G sqrt c R states inputs fitT fitB only numTest margin tests).1 hc)] at h; cases h
  have hre := (C72_refused I setReg G sqrt c R states inputs fitT fitB only numTest margin tests).2.2 hcd
    (by rw [hs]; rfl) qs us h1
  have hn : 0 ≤ numTest := by
    by_contra hn
    rw [hre.1 (by omega)] at h
    cases h
  have hus : ∀ V ∈ us, V.length = qs.length := by
    intro V hV
    by_contra hne
    rw [(hre.2 hn).1 V hV hne] at h
    cases h
  obtain ⟨⟨es, g1, g2⟩, -⟩ := (C72_discrete_cases sqrt margin numTest.toNat tests R R1 hcd qs us hus fitT fitB d h2
    tests' trains).1 h4
  refine ⟨hn, qs, us, es, h1, by rw [h3]; exact g1, ?_⟩
  intro x hx hWF
  obtain ⟨i, hi, rfl⟩ := mem_iff_getElem.mp hx
  have hi2 : i < trains.length := by rw [← g2.length_eq]; exact hi
  obtain ⟨Y, g3, g4⟩ := (forall₂_iff_get.mp g2).2 i hi hi2
  have g5 := (forall₂_iff_get.mp h5).2 i hi2 (by rw [← h5.length_eq]; exact hi2)
  simp only [get_eq_getElem] at g3 g4 g5
  obtain ⟨L, e1, e2, -⟩ := (C72_discrete_trajectory sqrt margin numTest.toNat _ Y hWF g3 _ _ g4 _ _).1 g5
  refine ⟨L, e1, ?_, e2⟩
  rw [C15_predict_iff] at e1
  obtain ⟨-, -, -, -, e3, -⟩ := e1
  rw [e3, Int.toNat_natCast]

/-- **C73 is false of the code:** what the model does in the last of the `num_test_iters` iterations after the training
data plays no role: if a model agrees with another one on the first `k - 1 + num_test_iters` states, it gets the same
score. -/
theorem C73_blind [Field K] [LinearOrder K] (sqrt : K → K) (margin : K) (numTest : Nat) (e Y : Snap K)
    (he : e.WF) (hY : e.initCols = .ok Y) (U : PredInput K) (c : TrainCase K (Model K S))
    (hc : discTrain sqrt margin numTest Y U = .ok c) (M N : Model K S)
    (h : M.predict (e.columnList.headD []) (e.columnList.length - 1 + numTest : Nat) U =
      N.predict (e.columnList.headD []) (e.columnList.length - 1 + numTest : Nat) U) (err : Val K) :
    c.Scores M err ↔ c.Scores N err := by
  rw [C72_discrete_trajectory sqrt margin numTest e Y he hY U c hc, C72_discrete_trajectory sqrt margin numTest e Y he hY U c hc,
    h]

/-- A reduced-order model without any preprocessing. -/
def bareRom (continuous : Bool) : FRom ℚ Unit Unit (Tik (Mat ℚ) ℚ) :=
  ⟨⟨none, none, none, continuous⟩, none, RegEx.fresh⟩

/-- Selection for the trajectory 1, 3, 9 of the tripling map with margin 10: at most 10 away from the mean 2 of 1, 3. -/
def tripling (numTest : Int) : FRom ℚ Unit Unit (Tik (Mat ℚ) ℚ) × Except Err Unit :=
  (bareRom false).selectDiscrete RegEx.tik (tikSetReg (RegEx.factory 1)) RegEx.search RegEx.root (.nums [0])
    (.one (.mat 3 [[1, 3, 9]])) none true true true numTest 10 []

/-- **C73 is false of the code**, concretely: stability is asked for in one iteration after the training data 1, 3, 9,
but the selected model is at 27 then, 25 away from the mean; asking for two iterations rejects it. -/
theorem C73_discrete_witness :
    (tripling 1).2 = .ok () ∧ (tripling 1).1.model.predict [1] 4 .none = .ok [[1], [3], [9], [27]] ∧
    ¬ StaysNear 1 [[1], [3]] (10 : ℚ) [[1], [3], [9], [27]] ∧ StaysNear 1 [[1], [3]] (10 : ℚ) [[1], [3], [9]] ∧
    (tripling 2).2 = .error .runtime := by
  have hD : IsDeviation 1 [[1], [3]] (1 : ℚ) := by
    constructor
    · intro q hq i hi
      obtain rfl : i = 0 := by omega
      simp only [mem_cons, not_mem_nil, or_false] at hq
      rcases hq with rfl | rfl <;> decide +kernel
    · exact ⟨[1], by simp, 0, by omega, by decide +kernel⟩
  refine ⟨by decide +kernel, by decide +kernel, ?_, ⟨1, hD, Or.inr ?_⟩, by decide +kernel⟩
  · rintro ⟨E, hE, h⟩
    have := isDeviation_unique hE hD
    subst this
    rcases h with h | h
    · norm_num at h
    · have := h [27] (by simp) 0 (by omega)
      revert this
      decide +kernel
  · intro q hq i hi
    obtain rfl : i = 0 := by omega
    simp only [mem_cons, not_mem_nil, or_false] at hq
    rcases hq with rfl | rfl | rfl <;> decide +kernel

/-! ### C73: time-continuous models -/

theorem linspace_last [Field K] [CharZero K] (a b : K) (n : Nat) (h : 2 ≤ n) (d : K) : (linspace a b n).getLastD d = b := by
  obtain ⟨m, rfl⟩ : ∃ m, n = m + 2 := ⟨n - 2, by omega⟩
  have h0 : ((m + 1 : Nat) : K) ≠ 0 := Nat.cast_ne_zero.mpr (by omega)
  simp only [linspace, show m + 2 - 1 = m + 1 from rfl]
  rw [range_succ, map_append, map_cons, map_nil, getLastD_concat, mul_div_cancel₀ _ h0]
  ring

/-- **C73**, true part: if `test_time_length` is at least twice the (mean) time step, then the times in which stability is
required start one step after the training times and reach beyond `test_time_length` by one step. -/
theorem C73_continuous_partial [Field K] [LinearOrder K] [IsStrictOrderedRing K] [FloorRing K] (T : K) (t : List K)
    (h2 : 2 ≤ t.length) (hdt : 0 < meanStep t) (hT : 2 * meanStep t ≤ T) :
    ∃ extra, extendTimes T t = .ok (t ++ extra) ∧ extra.head? = some (t.getLastD 0 + meanStep t) ∧
      extra.getLastD 0 = t.getLastD 0 + T + meanStep t ∧ extra.length = ⌊T / meanStep t⌋.toNat := by
  have hT0 : 0 < T := lt_of_lt_of_le (by linarith) hT
  have hfl : 2 ≤ ⌊T / meanStep t⌋.toNat := by
    have : (2 : ℤ) ≤ ⌊T / meanStep t⌋ := by
      rw [Int.le_floor, le_div_iff₀ hdt]
      exact_mod_cast hT
    omega
  refine ⟨(linspace (meanStep t) (meanStep t + T) ⌊T / meanStep t⌋.toNat).map (t.getLastD 0 + ·), ?_, ?_, ?_, ?_⟩
  · rw [extendTimes, if_pos hT0, if_neg (by omega), if_neg hdt.ne', if_neg hdt.le.not_gt]
  · obtain ⟨m, hm⟩ : ∃ m, ⌊T / meanStep t⌋.toNat = m + 1 := ⟨⌊T / meanStep t⌋.toNat - 1, by omega⟩
    simp [hm, linspace, range_succ_eq_map]
  · have := linspace_last (meanStep t) (meanStep t + T) _ hfl 0
    have hne : linspace (meanStep t) (meanStep t + T) ⌊T / meanStep t⌋.toNat ≠ [] := by
      intro h
      have := congrArg length h
      simp [linspace] at this
      omega
    rw [getLastD_eq_getLast?, getLast?_map, getLast?_eq_getLast_of_ne_nil hne]
    rw [getLastD_eq_getLast?, getLast?_eq_getLast_of_ne_nil hne] at this
    simp only [Option.getD_some, Option.map_some] at this ⊢
    rw [this]
    ring
  · simp [linspace]

/-- **C73 is false of the code:** if `test_time_length` is less than the time step, stability is not required at any time
after the training data; if it is less than twice the time step, only one step after them. -/
theorem C73_continuous_short [Field K] [LinearOrder K] [IsStrictOrderedRing K] [FloorRing K] (T : K) (t : List K)
    (h2 : 2 ≤ t.length) (hdt : 0 < meanStep t) (hT : 0 ≤ T) :
    (T < meanStep t → extendTimes T t = .ok t) ∧
    (meanStep t ≤ T → T < 2 * meanStep t → extendTimes T t = .ok (t ++ [t.getLastD 0 + meanStep t])) := by
  constructor
  · intro hlt
    rcases hT.eq_or_lt with rfl | hT
    · simp [extendTimes]
    · have : ⌊T / meanStep t⌋ = 0 := by
        rw [Int.floor_eq_zero_iff]
        exact ⟨by positivity, (div_lt_one hdt).mpr hlt⟩
      rw [extendTimes, if_pos hT, if_neg (by omega), if_neg hdt.ne', if_neg hdt.le.not_gt, this]
      simp [linspace]
  · intro hle hlt
    have : ⌊T / meanStep t⌋ = 1 := by
      rw [Int.floor_eq_iff]
      refine ⟨?_, ?_⟩
      · rw [le_div_iff₀ hdt]; simpa using hle
      · rw [div_lt_iff₀ hdt]; push_cast; linarith
    rw [extendTimes, if_pos (lt_of_lt_of_le hdt hle), if_neg (by omega), if_neg hdt.ne', if_neg hdt.le.not_gt, this]
    simp [linspace]

/-- **C73 is false of the code:** a complete solution with a NaN is not taken to be unstable. -/
theorem C73_nan_accepted [Field K] [LinearOrder K] (shift : List K) (limit : Val K) (Q : Traj K)
    (hnan : .nan ∈ Q.dists shift) : unstableCont shift limit Q.length Q = .ok false := by
  have h1 : (Q.dists shift).isEmpty = false := by
    cases h : Q.dists shift with
    | nil => rw [h] at hnan; cases hnan
    | cons a l => rfl
  have h2 : (Q.dists shift).any (fun d => decide (d = .nan)) = true := any_eq_true.mpr ⟨_, hnan, by simp⟩
  simp only [unstableCont, ne_eq, not_true_eq_false, if_false, exceeds, h1, Bool.false_eq_true, h2, if_true]

/-- An integrator that fails with NaN after the training times 0, 1. -/
def nanSim : Integrator ℚ (Tik (Mat ℚ) ℚ) := fun _ q0 t _ =>
  .ok (t.map fun s => if s < 2 then q0.map .num else q0.map fun _ => .nan)

/-- Selection for a constant trajectory with test time 4. -/
def constantCall (sim : Integrator ℚ (Tik (Mat ℚ) ℚ)) : FRom ℚ Unit Unit (Tik (Mat ℚ) ℚ) × Except Err Unit :=
  (bareRom true).selectContinuous RegEx.tik (tikSetReg (RegEx.factory 1)) RegEx.search sim oneNorm (.nums [0])
    (.one [0, 1]) (.one (.mat 2 [[1, 3]])) (some (.one (.mat 2 [[0, 0]]))) none true true true 4 10 []

/-- **C73 is false of the code**, concretely: a model whose solution is NaN at all times after the training data is
selected, while one that leaves the bounds there is not. -/
theorem C73_nan_witness : (constantCall nanSim).2 = .ok () ∧
    (constantCall fun _ q0 t _ => .ok (t.map fun s => if s < 2 then q0.map .num else [.num 100])).2 = .error .runtime ∧
    extendTimes (4 : ℚ) [0, 1] = .ok [0, 1, 2, 10 / 3, 14 / 3, 6] := by
  refine ⟨?_, ?_, ?_⟩ <;> decide +kernel

/-! ### The hypotheses can be satisfied -/

/-- C72 and C73 apply to the selection for the tripling map. -/
example : ∃ qs us es, fixLists (.one (.mat 3 [[(1 : ℚ), 3, 9]])) none none = .ok (qs, none, us) ∧
    Forall₂ (fun q e => (tripling 1).1.rom.encode1 q = .ok e) qs es := by
  obtain ⟨-, qs, us, es, h1, h2, -⟩ := C73_discrete_partial RegEx.tik (setReg := tikSetReg (RegEx.factory 1))
    RegEx.search (tikSetReg_overwrites _) (fun _ => trivial) RegEx.root (.nums [0]) (bareRom false) (tripling 1).1 rfl
    ⟨none, .normal, none, none⟩ rfl (tik_commute _ _ _ _ rfl) (.one (.mat 3 [[1, 3, 9]])) none true true true 1 10 []
    (Prod.ext (x := tripling 1) rfl (by decide +kernel))
  exact ⟨qs, us, es, h1, h2⟩

/-- C72 for a time-continuous model. -/
example : ∃ w s', tikSetReg (RegEx.factory 1) ⟨none, .normal, none, none⟩ w = (s', .ok ()) ∧
    ((bareRom true).withSolver s').fit RegEx.tik (.many [.mat 2 [[1, 3]]]) (some (.many [.mat 2 [[0, 0]]])) none true true
      = ((constantCall nanSim).1, .ok ()) := by
  obtain ⟨qs, zs, ts, us, U, R1, d, tests, trains, h1, -, -, -, w, s', v, h2, h3, -⟩ :=
    C72_continuous RegEx.tik (setReg := tikSetReg (RegEx.factory 1))
    RegEx.search (tikSetReg_overwrites _) (fun _ => trivial) nanSim oneNorm (.nums [0]) (.one [0, 1]) (bareRom true)
    (constantCall nanSim).1 rfl ⟨none, .normal, none, none⟩ rfl (tik_commute _ _ _ _ rfl) (.one (.mat 2 [[1, 3]]))
    (some (.one (.mat 2 [[0, 0]]))) none true true true 4 10 [] (Prod.ext (x := constantCall nanSim) rfl (by decide +kernel))
  cases h1
  exact ⟨w, s', h2, h3⟩

/-- A training trajectory with one test iteration. -/
example : ∃ c : TrainCase ℚ (Model ℚ (Tik (Mat ℚ) ℚ)), discTrain RegEx.root 10 1 (.mat 2 [[1, 3]]) .none = .ok c ∧
    (Snap.mat 3 [[(1 : ℚ), 3, 9]]).initCols = .ok (.mat 2 [[1, 3]]) := by
  have h : stabilityLimit 1 (10 : ℚ) (transpose 2 [[1, 3]]) = .ok (.num 10) := by decide +kernel
  refine ⟨discreteCase RegEx.root 1 (.num 10) (transpose 2 [[1, 3]]) 1 .none, ?_, rfl⟩
  change (stabilityLimit 1 (10 : ℚ) (transpose 2 [[1, 3]])).map _ = _
  rw [h]
  rfl

/-- Inputs over a time domain. -/
example : evalInputs (fun t : ℚ => [t, 2 * t]) [0, 1, 3] = .ok (.mat 3 [[0, 1, 3], [0, 2, 6]]) := by decide +kernel

/-- The extended time domain: with test time 1/2 there are no test times, with 3/2 there is one. -/
example : extendTimes (1 / 2 : ℚ) [0, 1] = .ok [0, 1] ∧ extendTimes (3 / 2 : ℚ) [0, 1] = .ok [0, 1, 2] ∧
    extendTimes (2 : ℚ) [0, 1] = .ok [0, 1, 2, 4] := by
  refine ⟨?_, ?_, ?_⟩ <;> decide +kernel

end Opinf
