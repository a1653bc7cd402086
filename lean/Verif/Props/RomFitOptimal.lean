import Verif.Props.FiniteDiff
import Verif.Props.FitDiscrete
import Verif.Props.RomFit

/-!
# C70: the model of a trained reduced-order model is optimal over all trajectories
-/

namespace Opinf

open List

variable {K T B S : Type}

/-! ### Specification -/

/-- A state, the left-hand side at this state and the input there. -/
structure TrainSample (K : Type) where
  q : List K
  z : List K
  u : Option (List K)

/-- The inputs at the snapshots of a trajectory with `k` snapshots. -/
def inputColumns [Zero K] (k : Nat) : Option (Snap K) → List (Option (List K))
  | none => replicate k none
  | some u => u.columnList.map some

/-- The samples of a trajectory: its columns with the corresponding columns of the left-hand side and the inputs. -/
def trajSamples [Zero K] (y z : Snap K) (u : Option (Snap K)) : List (TrainSample K) :=
  (zip y.columnList (zip z.columnList (inputColumns y.ncolumns u))).map fun x => ⟨x.1, x.2.1, x.2.2⟩

/-- The inputs of `k` trajectories. -/
def inputList (k : Nat) : Option (List (Snap K)) → List (Option (Snap K))
  | none => replicate k none
  | some us => us.map some

/-- The samples of all trajectories. -/
def TrainData.samples [Zero K] (d : TrainData K) : List (TrainSample K) :=
  (zip d.states (zip d.lhs (inputList d.states.length d.inputs))).flatMap fun x => trajSamples x.1 x.2.1 x.2.2

/-- Every left-hand side and every input has as many columns as the states of its trajectory. -/
structure TrainData.Aligned (d : TrainData K) : Prop where
  states : ∀ Y ∈ d.states, Y.WF
  lhs : ∀ Z ∈ d.lhs, Z.WF
  inputs : ∀ us ∈ d.inputs, ∀ U ∈ us, U.WF
  lhsWidth : d.lhs.map Snap.ncolumns = d.states.map Snap.ncolumns
  inputWidth : ∀ us ∈ d.inputs, us.map Snap.ncolumns = d.states.map Snap.ncolumns

/-- The value of the right-hand side of a model. -/
def Model.value [CommRing K] (M : Model K S) (q : List K) (u : Option (List K)) : List K :=
  match M.rhs q u with
  | .ok y => y
  | .error _ => []

/-- The operators of `M'` to be learned, with matrix `O`, minimise the sum of the squared residuals over the samples
plus a penalty; the other operators are those of `M`. -/
structure TrainedOptimally [CommRing K] [LE K] (M M' : Model K S) (xs : List (TrainSample K)) (penalty : Mat K → K)
    (O : Mat K) : Prop where
  opMatrix : M'.operatorMatrix = .ok O
  wf : O.WF
  output : ∀ x ∈ xs, M'.rhs x.q x.u = .ok (M'.value x.q x.u) ∧
    M.knownPart.rhs x.q x.u = .ok (M.knownPart.value x.q x.u)
  optimal : ∀ O' : Mat K, O'.WF → O'.nrows = O.nrows → O'.ncols = O.ncols →
    (xs.map fun x => sumSq (vsub x.z (M'.value x.q x.u))).sum + penalty O ≤
      (xs.map fun x => sumSq (vsub x.z (vadd
        (matVec O'.rows (M.toInfer.flatMap fun o => o.dataCol x.q (x.u.getD [])))
        (M.knownPart.value x.q x.u)))).sum + penalty O'

/-! ### Samples of the concatenated data -/

/-- The samples of data given as one array each. -/
def argSamples (states lhs : Arg K) (inputs : Option (Arg K)) : List (TrainSample K) :=
  (range (atleast2d states).2.length).map fun j =>
    ⟨(atleast2d states).2.getD j [], (atleast2d lhs).2.getD j [], inputAt inputs j⟩

theorem value_of [CommRing K] {M : Model K S} {q : List K} {u : Option (List K)} {y : List K}
    (h : M.rhs q u = .ok y) : M.value q u = y := by rw [Model.value, h]

theorem trainedOptimally_of [CommRing K] [LE K] {M M' : Model K S} {states lhs : Arg K} {inputs : Option (Arg K)}
    {penalty : Mat K → K} {O : Mat K} {y w : Nat → List K} (h : FitOptimal M M' states lhs inputs penalty O y w) :
    TrainedOptimally M M' (argSamples states lhs inputs) penalty O := by
  refine ⟨h.opMatrix, h.wf, ?_, ?_⟩
  · intro x hx
    obtain ⟨j, hj, rfl⟩ := mem_map.mp hx
    obtain ⟨h1, h2⟩ := h.output j (mem_range.mp hj)
    exact ⟨by rw [value_of h1]; exact h1, by rw [value_of h2]; exact h2⟩
  · intro O' h1 h2 h3
    have := h.optimal O' h1 h2 h3
    simp only [snapshotLoss, outputWith] at this
    have e1 : (argSamples states lhs inputs).map (fun x => sumSq (vsub x.z (M'.value x.q x.u))) =
        (range (atleast2d states).2.length).map fun j => sumSq (vsub ((atleast2d lhs).2.getD j []) (y j)) := by
      rw [argSamples, map_map]
      apply map_congr_left
      intro j hj
      rw [Function.comp_apply, value_of (h.output j (mem_range.mp hj)).1]
    have e2 : (argSamples states lhs inputs).map (fun x => sumSq (vsub x.z (vadd
          (matVec O'.rows (M.toInfer.flatMap fun o => o.dataCol x.q (x.u.getD [])))
          (M.knownPart.value x.q x.u)))) =
        (range (atleast2d states).2.length).map fun j => sumSq (vsub ((atleast2d lhs).2.getD j [])
          (vadd (matVec O'.rows (M.toInfer.flatMap fun o =>
            o.dataCol ((atleast2d states).2.getD j []) ((inputAt inputs j).getD []))) (w j))) := by
      rw [argSamples, map_map]
      apply map_congr_left
      intro j hj
      rw [Function.comp_apply, value_of (h.output j (mem_range.mp hj)).2]
    rw [e1, e2]
    exact this

theorem inputColumns_length [Zero K] (k : Nat) (u : Option (Snap K)) (h : ∀ v ∈ u, v.ncolumns = k) :
    (inputColumns k u).length = k := by
  cases u with
  | none => simp [inputColumns]
  | some v => simp [inputColumns, columnList_length, h v rfl]

/-- The samples of several trajectories are those of the concatenated data. -/
theorem samples_eq [Zero K] (ys zs : List (Snap K)) (us : List (Option (Snap K))) (h1 : zs.map Snap.ncolumns = ys.map Snap.ncolumns)
    (h2 : zipWith (fun y u => (inputColumns (Snap.ncolumns y) u).length) ys us = ys.map Snap.ncolumns)
    (h3 : us.length = ys.length) :
    (zip ys (zip zs us)).flatMap (fun x => trajSamples x.1 x.2.1 x.2.2) =
      (zip (ys.flatMap Snap.columnList) (zip (zs.flatMap Snap.columnList)
        (zipWith (fun y u => inputColumns (Snap.ncolumns y) u) ys us).flatten)).map fun x => (⟨x.1, x.2.1, x.2.2⟩ : TrainSample K) := by
  induction ys generalizing zs us with
  | nil => simp
  | cons y ys ih =>
    obtain _ | ⟨z, zs⟩ := zs
    · simp at h1
    obtain _ | ⟨u, us⟩ := us
    · simp at h3
    simp only [map_cons, cons.injEq, zipWith_cons_cons] at h1 h2
    rw [zip_cons_cons, zip_cons_cons, flatMap_cons, ih zs us h1.2 h2.2 (by simpa using h3), flatMap_cons, flatMap_cons,
      zipWith_cons_cons, flatten_cons, zip_append, zip_append, map_append]
    · rfl
    · rw [columnList_length, length_zip, columnList_length, h1.1, h2.1, Nat.min_self]
    · rw [columnList_length, h1.1, h2.1]

theorem argSamples_eq (states lhs : Arg K) (inputs : Option (Arg K)) (is : List (Option (List K)))
    (h1 : (atleast2d lhs).2.length = (atleast2d states).2.length) (h2 : is.length = (atleast2d states).2.length)
    (h3 : ∀ j (hj : j < is.length), inputAt inputs j = is[j]) :
    argSamples states lhs inputs =
      (zip (atleast2d states).2 (zip (atleast2d lhs).2 is)).map fun x => ⟨x.1, x.2.1, x.2.2⟩ := by
  apply ext_getElem
  · simp [argSamples, h1, h2]
  · intro j g1 g2
    have hj : j < (atleast2d states).2.length := by simpa [argSamples] using g1
    simp only [argSamples, getElem_map, getElem_range, getElem_zip]
    rw [getD_eq_getElem _ _ hj, getD_eq_getElem _ _ (h1 ▸ hj), h3 j (h2 ▸ hj)]

theorem flatMap_length_congr [Zero K] {ys zs : List (Snap K)} (h : zs.map Snap.ncolumns = ys.map Snap.ncolumns) :
    (zs.flatMap Snap.columnList).length = (ys.flatMap Snap.columnList).length := by
  simp only [length_flatMap, columnList_length]
  rw [show (zs.map fun a => a.ncolumns) = zs.map Snap.ncolumns from rfl, h]

theorem stacked_ok {d : TrainData K} {Y Z : Snap K} {U : Option (Snap K)} (h : d.stacked = .ok (Y, Z, U)) :
    stackInputs d.inputs = .ok U ∧ hstackAll d.states = .ok Y ∧ hstackAll d.lhs = .ok Z := by
  simp only [TrainData.stacked, bind, Except.bind, pure, Except.pure] at h
  cases h1 : stackInputs d.inputs with
  | error e => rw [h1] at h; cases h
  | ok U' =>
    cases h2 : hstackAll d.states with
    | error e => rw [h1, h2] at h; cases h
    | ok Y' =>
      cases h3 : hstackAll d.lhs with
      | error e => rw [h1, h2, h3] at h; cases h
      | ok Z' =>
        rw [h1, h2, h3] at h
        cases h
        exact ⟨rfl, rfl, rfl⟩

theorem stackInputs_ok {us : Option (List (Snap K))} {U : Option (Snap K)} (h : stackInputs us = .ok U) :
    (us = none ∧ U = none) ∨ ∃ vs V, us = some vs ∧ U = some V ∧ hstackAll vs = .ok V := by
  cases us with
  | none => simp only [stackInputs, Except.ok.injEq] at h; exact .inl ⟨rfl, h.symm⟩
  | some vs =>
    simp only [stackInputs] at h
    cases hv : hstackAll vs with
    | error e => rw [hv] at h; cases h
    | ok V =>
      rw [hv] at h
      simp only [Except.map, Except.ok.injEq] at h
      exact .inr ⟨vs, V, rfl, h.symm, hv⟩

theorem flatten_replicate_none (ys : List (Snap K)) (us : List (Option (Snap K))) [Zero K]
    (h : us = replicate ys.length none) :
    (zipWith (fun y u => inputColumns (Snap.ncolumns y) u) ys us).flatten =
      replicate (ys.flatMap Snap.columnList).length none := by
  subst h
  induction ys with
  | nil => rfl
  | cons y ys ih =>
    rw [length_cons, replicate_succ, zipWith_cons_cons, flatten_cons, ih, flatMap_cons, length_append,
      replicate_add, columnList_length]
    rfl

theorem flatten_some [Zero K] (ys us : List (Snap K)) (h : us.length = ys.length) :
    (zipWith (fun y u => inputColumns (Snap.ncolumns y) u) ys (us.map some)).flatten =
      (us.flatMap Snap.columnList).map some := by
  induction ys generalizing us with
  | nil =>
    have : us = [] := length_eq_zero_iff.mp (by simpa using h)
    subst this
    rfl
  | cons y ys ih =>
    obtain _ | ⟨u, us⟩ := us
    · simp at h
    rw [map_cons, zipWith_cons_cons, flatten_cons, ih us (by simpa using h), flatMap_cons, map_append]
    rfl

theorem zipWith_inputs [Zero K] (ys us : List (Snap K)) (h : us.map Snap.ncolumns = ys.map Snap.ncolumns) :
    zipWith (fun y u => (inputColumns (Snap.ncolumns y) u).length) ys (us.map some) = ys.map Snap.ncolumns := by
  induction ys generalizing us with
  | nil => rfl
  | cons y ys ih =>
    obtain _ | ⟨u, us⟩ := us
    · simp at h
    simp only [map_cons, cons.injEq] at h
    rw [map_cons, zipWith_cons_cons, ih us h.2, map_cons]
    simp [inputColumns, columnList_length, h.1]

theorem zipWith_no_inputs [Zero K] (ys : List (Snap K)) :
    zipWith (fun (y : Snap K) (u : Option (Snap K)) => (inputColumns (Snap.ncolumns y) u).length) ys (replicate ys.length none) =
      ys.map Snap.ncolumns := by
  induction ys with
  | nil => rfl
  | cons y ys ih =>
    rw [length_cons, replicate_succ, zipWith_cons_cons, ih, map_cons]
    simp [inputColumns]

/-- The samples of aligned training data are those of the concatenated arrays. -/
theorem samples_stacked [Zero K] {d : TrainData K} (hd : d.Aligned) {Y Z : Snap K} {U : Option (Snap K)}
    (h : d.stacked = .ok (Y, Z, U)) : d.samples = argSamples Y.toArg Z.toArg (U.map Snap.toArg) ∧
      (∀ V ∈ U, V.columnList.length = Y.columnList.length) ∧ ∀ X ∈ d.states, X.nrows = Y.nrows := by
  obtain ⟨h1, h2, h3⟩ := stacked_ok h
  obtain ⟨y1, y2, y3⟩ := hstackAll_ok hd.states h2
  obtain ⟨z1, z2, -⟩ := hstackAll_ok hd.lhs h3
  have hlen : Z.columnList.length = Y.columnList.length := by
    rw [z2, y2]; exact flatMap_length_congr hd.lhsWidth
  rcases stackInputs_ok h1 with ⟨hi, rfl⟩ | ⟨vs, V, hi, rfl, hv⟩
  · refine ⟨?_, by simp, y3⟩
    rw [Option.map_none, argSamples_eq Y.toArg Z.toArg none (replicate Y.columnList.length none) hlen (by simp [Snap.columnList])
      (by simp [inputAt]), TrainData.samples, hi, inputList,
      samples_eq _ _ _ hd.lhsWidth (zipWith_no_inputs _) (by simp), flatten_replicate_none _ _ rfl]
    rw [← y2, ← z2]
    rfl
  · have hw := hd.inputWidth vs hi
    obtain ⟨v1, v2, -⟩ := hstackAll_ok (hd.inputs vs hi) hv
    have hvl : V.columnList.length = Y.columnList.length := by
      rw [v2, y2]; exact flatMap_length_congr hw
    have hvs : vs.length = d.states.length := by simpa using congrArg length hw
    refine ⟨?_, ?_, y3⟩
    · rw [Option.map_some, argSamples_eq Y.toArg Z.toArg (some V.toArg) (V.columnList.map some) hlen (by rw [length_map]; exact hvl)
        ?_, TrainData.samples, hi, inputList,
        samples_eq _ _ _ hd.lhsWidth (zipWith_inputs _ _ hw) (by simpa using hvs), flatten_some _ _ hvs]
      · rw [← y2, ← z2, ← v2]
        rfl
      · intro j hj
        have hj' : j < V.columnList.length := by simpa using hj
        rw [getElem_map, ← getD_eq_getElem _ [] hj']
        rfl
    · intro W hW
      cases hW
      exact hvl

/-! ### From the reduced-order model to its model -/

theorem takeCols_toArg [Zero K] (V : Snap K) (k : Nat) (h : V.columnList.length ≤ k) :
    V.toArg.takeCols k = V.toArg := by
  cases V with
  | vec xs =>
    simp only [Snap.columnList, Snap.toArg, atleast2d, length_map] at h
    simp only [Snap.toArg, Arg.takeCols, take_of_length_le h]
  | mat l rows =>
    simp only [Snap.columnList, Snap.toArg, atleast2d] at h
    simp only [Snap.toArg, Arg.takeCols, take_of_length_le h]

theorem fitModel_eq [CommRing K] (I : SolverI K S) (M M' : Model K S) (c : Bool) (Y Z : Snap K) (U : Option (Snap K))
    (hU : ∀ V ∈ U, V.columnList.length = Y.columnList.length) (h : fitModel I M c Y Z U = (M', .ok ())) :
    M.fit I Y.toArg Z.toArg (U.map Snap.toArg) = (M', .ok ()) := by
  cases c with
  | true => exact h
  | false =>
    simp only [fitModel, Bool.false_eq_true, if_false] at h
    cases Y with
    | vec xs => cases h
    | mat k rows =>
      change M.fitDiscrete I rows.length (transpose k rows) (some Z.toArg) (U.map Snap.toArg) = (M', .ok ()) at h
      obtain ⟨e1, e2, -⟩ := C63_discrete_fit_explicit I M rows.length (transpose k rows) Z.toArg
      cases U with
      | none =>
        rw [Option.map_none, e1] at h
        exact h
      | some V =>
        rw [Option.map_some, e2 _ (by cases V <;> simp [Snap.toArg]), takeCols_toArg] at h
        · exact h
        · exact le_of_eq (hU V rfl)

/-- A successful `fit` processes the data and fits the model to the concatenation. -/
theorem fitLists_ok [CommRing K] (I : SolverI K S) (R R' : FRom K T B S) (qs : List (Snap K))
    (zs us : Option (List (Snap K))) (fitT fitB : Bool) (h : R.fitLists I qs zs us fitT fitB = (R', .ok ())) :
    ∃ R1 d Y Z U, R.process qs zs us fitT fitB = (R1, .ok d) ∧ d.stacked = .ok (Y, Z, U) ∧ R'.rom = R1.rom ∧
      R'.ddt = R1.ddt ∧ fitModel I R1.model R1.rom.continuous Y Z U = (R'.model, .ok ()) := by
  rw [FRom.fitLists] at h
  rcases hp : R.process qs zs us fitT fitB with ⟨R1, e | d⟩
  · rw [hp] at h; cases h
  · rw [hp] at h
    simp only at h
    cases hs : d.stacked with
    | error e => rw [hs] at h; cases h
    | ok x =>
      obtain ⟨Y, Z, U⟩ := x
      rw [hs] at h
      simp only [Prod.mk.injEq] at h
      obtain ⟨rfl, h2⟩ := h
      exact ⟨R1, d, Y, Z, U, rfl, hs, rfl, rfl, by rw [← h2]⟩

theorem process_model (R R1 : FRom K T B S) (qs : List (Snap K)) (zs us : Option (List (Snap K))) (fitT fitB : Bool)
    (o : Except Err (TrainData K)) (h : R.process qs zs us fitT fitB = (R1, o)) : R1.model = R.model := by
  rw [FRom.process] at h
  split at h <;> · injection h with h _; rw [← h]

/-- What the training of a reduced-order model amounts to, for aligned data. -/
theorem fit_reduces [CommRing K] (I : SolverI K S) (R R' : FRom K T B S) (states : TrainArg K)
    (lhs inputs : Option (TrainArg K)) (fitT fitB : Bool) (qs : List (Snap K)) (zs us : Option (List (Snap K)))
    (hl : fixLists states lhs inputs = .ok (qs, zs, us)) (R1 : FRom K T B S) (d : TrainData K)
    (hp : R.process qs zs us fitT fitB = (R1, .ok d)) (hd : d.Aligned)
    (h : R.fit I states lhs inputs fitT fitB = (R', .ok ())) :
    R'.rom = R1.rom ∧ R'.ddt = R1.ddt ∧ d.states ≠ [] ∧ ∃ Y Z : Snap K, ∃ U : Option (Snap K),
      (∀ X ∈ d.states, X.nrows = Y.nrows) ∧ d.samples = argSamples Y.toArg Z.toArg (U.map Snap.toArg) ∧
      R.model.fit I Y.toArg Z.toArg (U.map Snap.toArg) = (R'.model, .ok ()) := by
  rw [FRom.fit] at h
  cases hc : R.checkFitArgs lhs.isNone inputs.isNone with
  | error e => rw [hc] at h; cases h
  | ok x =>
    rw [hc, hl] at h
    simp only at h
    obtain ⟨R2, d2, Y, Z, U, h1, h2, h3, h4, h5⟩ := fitLists_ok I R R' qs zs us fitT fitB h
    rw [hp] at h1
    injection h1 with h1 h1'
    injection h1' with h1'
    subst h1 h1'
    obtain ⟨s1, s2, s3⟩ := samples_stacked hd h2
    refine ⟨h3, h4, ?_, Y, Z, U, s3, s1, ?_⟩
    · intro he
      have := (stacked_ok h2).2.1
      rw [he] at this
      cases this
    · rw [process_model R R1 qs zs us fitT fitB _ hp] at h5
      exact fitModel_eq I _ _ _ Y Z U s2 h5

theorem optArg_WF [Zero K] (U : Option (Snap K)) : ∀ a ∈ U.map Snap.toArg, a.WF := by
  intro a ha
  cases U with
  | none => cases ha
  | some V => cases ha; exact toArg_WF V

/-! ### C70 -/

section

variable [Field K] [LinearOrder K] [IsStrictOrderedRing K]

/-- **C70.** After a successful `fit` with an `L2Solver`, the operators of the model minimise the sum over all
snapshots of all trajectories of the squared residual at the encoded state, plus the penalty. -/
theorem C70_l2 (svd : Mat K → Except Err (Svd K)) (hsvd : ∀ D u, svd D = .ok u → IsSVD D u)
    (R R' : FRom K T B (L2 K K)) (hM : R.model.Inv) (hint : R.model.intrusive = false) (states : TrainArg K)
    (lhs inputs : Option (TrainArg K)) (fitT fitB : Bool) (qs : List (Snap K)) (zs us : Option (List (Snap K)))
    (hl : fixLists states lhs inputs = .ok (qs, zs, us)) (R1 : FRom K T B (L2 K K)) (d : TrainData K)
    (hp : R.process qs zs us fitT fitB = (R1, .ok d)) (hd : d.Aligned) (hr : ∀ Y ∈ d.states, 0 < Y.nrows)
    (h : R.fit (l2Solver svd) states lhs inputs fitT fitB = (R', .ok ())) :
    R'.rom = R1.rom ∧ ∃ (s : L2 K K) (lam : K) (O : Mat K), R.model.solver = some s ∧ s.reg = some lam ∧
      TrainedOptimally R.model R'.model d.samples (fun O => lam ^ 2 * (O.rows.map sumSq).sum) O := by
  obtain ⟨h1, -, hne, Y, Z, U, h3, h4, h5⟩ := fit_reduces _ R R' states lhs inputs fitT fitB qs zs us hl R1 d hp hd h
  obtain ⟨X, hX⟩ := exists_mem_of_ne_nil _ hne
  obtain ⟨s, lam, O, y, w, g1, g2, g3⟩ := C62_l2_fit_is_optimal svd hsvd R.model hM hint _ _ _ (toArg_WF Y)
    (toArg_WF Z) (optArg_WF U) (by have := hr X hX; rw [h3 X hX] at this; exact this) R'.model h5
  exact ⟨h1, s, lam, O, g1, g2, h4 ▸ trainedOptimally_of g3⟩

/-- **C70** (`PlainSolver`). -/
theorem C70_plain (lstsq : Mat K → Mat K → Except Err (Mat K)) (hls : ∀ A B X, lstsq A B = .ok X → IsLstsq A B X)
    (R R' : FRom K T B (Plain K)) (hM : R.model.Inv) (hint : R.model.intrusive = false) (states : TrainArg K)
    (lhs inputs : Option (TrainArg K)) (fitT fitB : Bool) (qs : List (Snap K)) (zs us : Option (List (Snap K)))
    (hl : fixLists states lhs inputs = .ok (qs, zs, us)) (R1 : FRom K T B (Plain K)) (d : TrainData K)
    (hp : R.process qs zs us fitT fitB = (R1, .ok d)) (hd : d.Aligned) (hr : ∀ Y ∈ d.states, 0 < Y.nrows)
    (h : R.fit (plainSolver lstsq) states lhs inputs fitT fitB = (R', .ok ())) :
    R'.rom = R1.rom ∧ ∃ O : Mat K, TrainedOptimally R.model R'.model d.samples (fun _ => 0) O := by
  obtain ⟨h1, -, hne, Y, Z, U, h3, h4, h5⟩ := fit_reduces _ R R' states lhs inputs fitT fitB qs zs us hl R1 d hp hd h
  obtain ⟨X, hX⟩ := exists_mem_of_ne_nil _ hne
  obtain ⟨O, y, w, g3⟩ := C62_plain_fit_is_optimal lstsq hls R.model hM hint _ _ _ (toArg_WF Y)
    (toArg_WF Z) (optArg_WF U) (by have := hr X hX; rw [h3 X hX] at this; exact this) R'.model h5
  exact ⟨h1, O, h4 ▸ trainedOptimally_of g3⟩

/-- **C70** (`TikhonovSolver`). -/
theorem C70_tikhonov (lstsq posSolve : Mat K → Mat K → Except Err (Mat K))
    (hls : ∀ A B X, lstsq A B = .ok X → IsLstsq A B X)
    (hps : ∀ A B X, A.nrows = B.nrows → A.nrows = A.ncols → posSolve A B = .ok X → IsSolution A B X)
    (R R' : FRom K T B (Tik (Mat K) K)) (hM : R.model.Inv) (hint : R.model.intrusive = false)
    (hreg : ∀ s ∈ R.model.solver, ∀ G ∈ s.reg, G.WF) (states : TrainArg K)
    (lhs inputs : Option (TrainArg K)) (fitT fitB : Bool) (qs : List (Snap K)) (zs us : Option (List (Snap K)))
    (hl : fixLists states lhs inputs = .ok (qs, zs, us)) (R1 : FRom K T B (Tik (Mat K) K)) (d : TrainData K)
    (hp : R.process qs zs us fitT fitB = (R1, .ok d)) (hd : d.Aligned) (hr : ∀ Y ∈ d.states, 0 < Y.nrows)
    (h : R.fit (tikSolver lstsq posSolve) states lhs inputs fitT fitB = (R', .ok ())) :
    R'.rom = R1.rom ∧ ∃ (s : Tik (Mat K) K) (G O : Mat K), R.model.solver = some s ∧ s.reg = some G ∧
      TrainedOptimally R.model R'.model d.samples (fun O => (O.rows.map fun o => sumSq (matVec G.rows o)).sum) O := by
  obtain ⟨h1, -, hne, Y, Z, U, h3, h4, h5⟩ := fit_reduces _ R R' states lhs inputs fitT fitB qs zs us hl R1 d hp hd h
  obtain ⟨X, hX⟩ := exists_mem_of_ne_nil _ hne
  obtain ⟨s, G, O, y, w, g1, g2, g3⟩ := C62_tikhonov_fit_is_optimal lstsq posSolve hls hps R.model hM hint hreg _ _ _
    (toArg_WF Y) (toArg_WF Z) (optArg_WF U) (by have := hr X hX; rw [h3 X hX] at this; exact this) R'.model h5
  exact ⟨h1, s, G, O, g1, g2, h4 ▸ trainedOptimally_of g3⟩

end

/-! ### When the data are aligned -/

/-- Estimated states, derivatives and inputs have the same number of columns. -/
structure DdtI.Aligns (E : DdtI K) : Prop where
  plain : ∀ Q Y Z, Q.WF → E.estimate Q = .ok (Y, Z) → Y.WF ∧ Z.WF ∧ Z.ncolumns = Y.ncolumns
  inputs : ∀ Q U Y Z V, Q.WF → U.WF → E.estimateWith Q U = .ok (Y, Z, V) →
    Y.WF ∧ Z.WF ∧ V.WF ∧ Z.ncolumns = Y.ncolumns ∧ V.ncolumns = Y.ncolumns

theorem run_inputs_error [Field K] [DecidableEq K] (s : Scheme) (A : Mat K) (dt : K) (e : Err) (V : Option (Mat K))
    (h : s.run A dt none = .error e) : s.run A dt V = .error e := by
  rw [Scheme.run] at h ⊢
  cases ht : s.table with
  | some x =>
    obtain ⟨mode, c, den⟩ := x
    rw [ht] at h
    simp only [finiteDifference] at h ⊢
    split at h
    · rename_i hk; rw [if_pos hk]; exact h
    · cases h
  | none =>
    rw [ht] at h
    simp only [bind, Except.bind] at h ⊢
    cases hd : ddtUniform A dt s.order with
    | error e' => rw [hd] at h; exact h
    | ok D => rw [hd] at h; cases h

/-- **C70.** The finite difference schemes keep states, derivatives and inputs aligned. -/
theorem C70_finite_differences_align [Field K] [DecidableEq K] (s : Scheme) (dt : K) : (fdDdt s dt).Aligns := by
  have key : ∀ (A : Mat K) (hA : A.WF) (U : Option (InputArr K)) (hU : ∀ M ∈ U, M.toMat.WF) (x : Mat K × Mat K × Option (Mat K)),
      s.estimate dt A U = .ok x → x.1.WF ∧ x.2.1.WF ∧ x.2.1.ncols = x.1.ncols ∧
        ∀ W ∈ x.2.2, W.WF ∧ W.ncols = x.1.ncols := by
    intro A hA U hU x hx
    have hk : s.minSnapshots ≤ A.ncols := by
      by_contra hlt
      have he := (C31_too_few_snapshots s dt A).mpr (by omega)
      simp only [Scheme.estimate] at he hx
      cases U with
      | none => simp only at hx; rw [he] at hx; cases hx
      | some M =>
        simp only at hx
        split at hx
        · cases hx
        · rw [run_inputs_error s A dt _ _ he] at hx; cases hx
    have hU' : ∀ M ∈ U, M.toMat.WF ∧ M.toMat.ncols = A.ncols := by
      intro M hM
      refine ⟨hU M hM, ?_⟩
      by_contra hne
      cases hM
      rw [C32_misaligned_inputs_rejected s dt A M hne] at hx
      cases hx
    obtain ⟨S, D, V, h1, h2, h3, h4, h5, h6, h7, h8, h9, -⟩ := C32_estimate_aligned s dt A hA hk U hU'
    rw [h1] at hx
    cases hx
    refine ⟨h2, h3, h7.trans h6.symm, ?_⟩
    intro W hW
    simp only [h9] at hW
    obtain ⟨M, hM, rfl⟩ := Option.mem_map.mp hW
    refine ⟨⟨?_, ?_⟩, h6.symm⟩
    · simp [(hU M hM).1]
    · intro row hrow
      obtain ⟨r, hr, rfl⟩ := mem_map.mp hrow
      have hl := (hU M hM).2 r hr
      rw [(hU' M hM).2] at hl
      have := h2.2
      rw [h6] at this
      simp only [length_take, length_drop, hl]
      have hw : s.first + s.width A.ncols ≤ A.ncols := by
        cases s <;> simp [Scheme.first, Scheme.width, Scheme.minSnapshots, Scheme.mixed, Scheme.docOrder] at hk ⊢ <;> omega
      omega
  constructor
  · intro Q Y Z hQ h
    cases Q with
    | vec xs => cases h
    | mat k rows =>
      simp only [fdDdt] at h
      cases he : s.estimate dt ⟨rows.length, k, rows⟩ none with
      | error e => rw [he] at h; cases h
      | ok x =>
        obtain ⟨k1, k2, k3, -⟩ := key ⟨rows.length, k, rows⟩ ⟨rfl, hQ⟩ none (by simp) x he
        rw [he] at h
        cases h
        exact ⟨k1.2, k2.2, k3⟩
  · intro Q U Y Z V hQ hU h
    cases Q with
    | vec xs => cases h
    | mat k rows =>
      simp only [fdDdt] at h
      have hU' : ∀ M ∈ some (match U with
          | .vec u => InputArr.vec u
          | .mat l us => .mat ⟨us.length, l, us⟩), M.toMat.WF := by
        intro M hM
        cases hM
        cases U with
        | vec u => exact ⟨rfl, by simp [InputArr.toMat]⟩
        | mat l us => exact ⟨rfl, hU⟩
      generalize (some (match U with
          | .vec u => InputArr.vec u
          | .mat l us => .mat ⟨us.length, l, us⟩)) = W at *
      cases he : s.estimate dt ⟨rows.length, k, rows⟩ W with
      | error e => rw [he] at h; cases h
      | ok x =>
        obtain ⟨k1, k2, k3, k4⟩ := key ⟨rows.length, k, rows⟩ ⟨rfl, hQ⟩ W hU' x he
        rw [he] at h
        obtain ⟨a, b, c⟩ := x
        cases c with
        | none => cases h
        | some c =>
          cases h
          exact ⟨k1.2, k2.2, (k4 c rfl).1.2, k3, (k4 c rfl).2⟩

/-- **C70.** With a time derivative estimator the training data are aligned. -/
theorem C70_estimated_aligned (R R' : FRom K T B S) (hc : R.rom.continuous = true) (E : DdtI K) (hE : R.ddt = some E)
    (hA : E.Aligns) (qs : List (Snap K)) (us : Option (List (Snap K))) (hlen : ∀ vs ∈ us, vs.length = qs.length)
    (hus : ∀ vs ∈ us, ∀ U ∈ vs, U.WF) (fitT fitB : Bool) (d : TrainData K)
    (h : R.process qs none us fitT fitB = (R', .ok d)) (hwf : ∀ q ∈ qs, ∀ e, R'.rom.encode1 q = .ok e → e.WF) :
    d.Aligned := by
  have hes : ∀ es, Forall₂ (fun q e => R'.rom.encode1 q = .ok e) qs es → ∀ e ∈ es, e.WF := by
    intro es h1 e he
    obtain ⟨q, hq, h2⟩ := forall₂_mem_right h1 he
    exact hwf q hq e h2
  cases us with
  | none =>
    obtain ⟨-, h2, -, es, xs, h3, h4, h5, h6⟩ := (C69_estimated R R' hc E hE qs fitT fitB d).mp h
    have hx : ∀ x ∈ xs, x.1.WF ∧ x.2.WF ∧ x.2.ncolumns = x.1.ncolumns := by
      intro x hx
      obtain ⟨e, he, h7⟩ := forall₂_mem_right h4 hx
      exact hA.plain e x.1 x.2 (hes es h3 e he) h7
    refine ⟨?_, ?_, by simp [h2], ?_, by simp [h2]⟩
    · rw [h5]; intro Y hY; obtain ⟨x, hx', rfl⟩ := mem_map.mp hY; exact (hx x hx').1
    · rw [h6]; intro Y hY; obtain ⟨x, hx', rfl⟩ := mem_map.mp hY; exact (hx x hx').2.1
    · rw [h5, h6, map_map, map_map]
      apply map_congr_left
      intro x hx'
      exact (hx x hx').2.2
  | some vs =>
    obtain ⟨-, -, es, xs, h3, h4, h5, h6, h7⟩ :=
      (C69_estimated_inputs R R' hc E hE qs vs (hlen vs rfl) fitT fitB d).mp h
    have hx : ∀ x ∈ xs, x.1.WF ∧ x.2.1.WF ∧ x.2.2.WF ∧ x.2.1.ncolumns = x.1.ncolumns ∧
        x.2.2.ncolumns = x.1.ncolumns := by
      intro x hx
      obtain ⟨e, he, h8⟩ := forall₂_mem_right h4 hx
      obtain ⟨he1, he2⟩ := of_mem_zip (a := e.1) (b := e.2) he
      exact hA.inputs e.1 e.2 x.1 x.2.1 x.2.2 (hes es h3 e.1 he1) (hus vs rfl e.2 he2) h8
    refine ⟨?_, ?_, ?_, ?_, ?_⟩
    · rw [h5]; intro Y hY; obtain ⟨x, hx', rfl⟩ := mem_map.mp hY; exact (hx x hx').1
    · rw [h6]; intro Y hY; obtain ⟨x, hx', rfl⟩ := mem_map.mp hY; exact (hx x hx').2.1
    · rw [h7]; intro ws hws U hU; cases hws; obtain ⟨x, hx', rfl⟩ := mem_map.mp hU; exact (hx x hx').2.2.1
    · rw [h5, h6, map_map, map_map]
      apply map_congr_left
      intro x hx'
      exact (hx x hx').2.2.2.1
    · rw [h7, h5]; intro ws hws; cases hws
      rw [map_map, map_map]
      apply map_congr_left
      intro x hx'
      exact (hx x hx').2.2.2.2

theorem forall₂_map_congr {α β γ : Type} {R : α → β → Prop} {l : List α} {l' : List β} {f : α → γ}
    {g : β → γ} (h : Forall₂ R l l') (hfg : ∀ a b, R a b → f a = g b) : l.map f = l'.map g := by
  induction h with
  | nil => rfl
  | cons hab _ ih => rw [map_cons, map_cons, ih, hfg _ _ hab]

theorem zipWith_map_congr {α β γ : Type} {f : α → β → γ} {g : α → γ} {as : List α} {bs : List β}
    (hl : bs.length = as.length) (h : ∀ i (h1 : i < as.length) (h2 : i < bs.length), f as[i] bs[i] = g as[i]) :
    zipWith f as bs = as.map g := by
  apply ext_getElem
  · simp [hl]
  · intro i h1 h2
    rw [getElem_zipWith, getElem_map]
    exact h i _ _

/-- **C70.** For a fully discrete model without left-hand sides, the training data are aligned if no trajectory has
too few inputs. -/
theorem C70_discrete_aligned [Zero K] (R R' : FRom K T B S) (hc : R.rom.continuous = false) (qs : List (Snap K))
    (us : Option (List (Snap K))) (hus : ∀ vs ∈ us, ∀ U ∈ vs, U.WF) (fitT fitB : Bool) (d : TrainData K)
    (h : R.process qs none us fitT fitB = (R', .ok d)) (hwf : ∀ q ∈ qs, ∀ e, R'.rom.encode1 q = .ok e → e.WF)
    (hin : ∀ vs ∈ us, vs.length = qs.length ∧
      ∀ (i : Nat) (Y U : Snap K), d.states[i]? = some Y → vs[i]? = some U → Y.ncolumns ≤ U.ncolumns) : d.Aligned := by
  obtain ⟨-, es, h1, h2, h3, h4⟩ := (C69_discrete R R' hc qs us fitT fitB d).mp h
  have hes : ∀ e ∈ es, e.WF := by
    intro e he
    obtain ⟨q, hq, h5⟩ := forall₂_mem_right h1 he
    exact hwf q hq e h5
  have hw1 : d.states.map Snap.ncolumns = es.map fun e => e.ncolumns - 1 := by
    symm
    refine forall₂_map_congr h2 ?_
    intro e y hy
    cases e with
    | vec xs => cases hy
    | mat k rows => cases hy; rfl
  have hw2 : d.lhs.map Snap.ncolumns = es.map fun e => e.ncolumns - 1 := by
    symm
    refine forall₂_map_congr h3 ?_
    intro e y hy
    cases e with
    | vec xs => cases hy
    | mat k rows => cases hy; rfl
  have hlen : d.states.length = qs.length := by rw [← h2.length_eq, ← h1.length_eq]
  refine ⟨?_, ?_, ?_, hw2.trans hw1.symm, ?_⟩
  · intro Y hY
    obtain ⟨e, he, h5⟩ := forall₂_mem_right h2 hY
    exact (initCols_ok (hes e he) h5).1
  · intro Y hY
    obtain ⟨e, he, h5⟩ := forall₂_mem_right h3 hY
    exact (tailCols_ok (hes e he) h5).1
  · intro ws hws U hU
    cases us with
    | none => rw [h4] at hws; cases hws
    | some vs =>
      rw [h4] at hws
      cases hws
      obtain ⟨i, hi, rfl⟩ := getElem_of_mem hU
      rw [getElem_zipWith]
      exact (firstCols_columns _ _ (hus vs rfl _ (getElem_mem _))).1
  · intro ws hws
    cases us with
    | none => rw [h4] at hws; cases hws
    | some vs =>
      rw [h4] at hws
      cases hws
      obtain ⟨g1, g2⟩ := hin vs rfl
      rw [map_zipWith]
      apply zipWith_map_congr (by rw [g1, hlen])
      intro i k1 k2
      have := g2 i d.states[i] vs[i] (getElem?_eq_getElem k1) (getElem?_eq_getElem k2)
      have hv := hus vs rfl vs[i] (getElem_mem _)
      rw [← columnList_length, (firstCols_columns _ _ hv).2, length_take, columnList_length]
      omega

/-- **C70.** The samples of a trajectory of a fully discrete model: the states `e_j` with the next states `e_{j+1}` and
the inputs `u_j`. -/
theorem C70_discrete_samples [Zero K] (e y z u : Snap K) (he : e.WF) (hu : u.WF) (hy : e.initCols = .ok y)
    (hz : e.tailCols = .ok z) (hw : e.ncolumns - 1 ≤ u.ncolumns) :
    trajSamples y z (some (u.firstCols y.ncolumns)) = (range (e.ncolumns - 1)).map fun j =>
      ⟨e.columnList.getD j [], e.columnList.getD (j + 1) [], some (u.columnList.getD j [])⟩ := by
  obtain ⟨-, -, -, h1, h2, h3⟩ := C69_discrete_columns e y z u he hu hy hz
  simp only [trajSamples, inputColumns, h1, h2, h3, columnList_length]
  apply ext_getElem
  · simp only [length_map, length_zip, length_dropLast, length_tail, length_take, columnList_length, length_range]
    omega
  · intro i g1 g2
    have hi : i < e.ncolumns - 1 := by simpa using g2
    simp only [getElem_map, getElem_zip, getElem_dropLast, getElem_tail, getElem_take, getElem_range]
    rw [getD_eq_getElem e.columnList _ (by rw [columnList_length]; omega),
      getD_eq_getElem e.columnList _ (by rw [columnList_length]; omega),
      getD_eq_getElem u.columnList _ (by rw [columnList_length]; omega)]

end Opinf
