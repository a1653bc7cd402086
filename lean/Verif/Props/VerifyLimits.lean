import Verif.Props.Verify
import Mathlib.Algebra.Order.Ring.Rat

/-!
# C89: what acceptance and refusal by `verify()` mean
-/

namespace Opinf

open List

variable {K S T : Type}

/-! ### Acceptance -/

/-- Two numbers agree up to the default tolerances of `numpy.allclose`. -/
def NearTo [Field K] [LinearOrder K] (x y : K) : Prop := |x - y| ≤ 1 / 10 ^ 8 + 1 / 10 ^ 5 * |y|

/-- All entries agree up to these tolerances. -/
def Snap.Near [Field K] [LinearOrder K] : Snap K → Snap K → Prop
  | .vec xs, .vec ys => Forall₂ NearTo xs ys
  | .mat _ a, .mat _ b => Forall₂ (Forall₂ NearTo) a b
  | _, _ => False

/-- Calls with `inplace=False` leave their argument as it is. -/
structure TfI.Careful (I : TfI K S) (s : S) : Prop where
  transform : ∀ Y, (I.transform s false Y).1 = Y
  inverse : ∀ Y l, (I.inverse s false Y l).1 = Y
  ddts : ∀ Y, (I.ddts s false Y).1 = Y

section Sound

variable [Field K] [LinearOrder K]

theorem closeList_near : ∀ {xs ys : List K}, closeList xs ys = true → Forall₂ NearTo xs ys
  | [], [], _ => .nil
  | x :: xs, y :: ys, h => by
    simp only [closeList, closeTo, Bool.and_eq_true, decide_eq_true_eq] at h
    exact .cons h.1 (closeList_near h.2)
  | [], _ :: _, h => by simp [closeList] at h
  | _ :: _, [], h => by simp [closeList] at h

theorem closeRows_near : ∀ {xs ys : List (List K)}, closeRows xs ys = true → Forall₂ (Forall₂ NearTo) xs ys
  | [], [], _ => .nil
  | x :: xs, y :: ys, h => by
    simp only [closeRows, Bool.and_eq_true] at h
    exact .cons (closeList_near h.1) (closeRows_near h.2)
  | [], _ :: _, h => by simp [closeRows] at h
  | _ :: _, [], h => by simp [closeRows] at h

theorem allClose_near {X Y : Snap K} (h : allClose X Y = true) : X.Near Y := by
  cases X <;> cases Y
  · exact closeList_near h
  · cases h
  · cases h
  · exact closeRows_near h

theorem insist_ok {b : Bool} (h : insist b = .ok ()) : b = true := by
  cases b
  · cases h
  · rfl

theorem atLocs_inv {Y W : Snap K} {locs : List Nat} (h : Y.atLocs locs = .ok W) : W = Y.pick locs := by
  simp only [Snap.atLocs, bind, Except.bind] at h
  cases hm : locs.mapM (fun i : Nat => pyIndex Y.len (i : Int)) with
  | error e => rw [hm] at h; cases h
  | ok ix =>
    rw [hm] at h
    have hix : ix = locs := by
      rw [mapM_ok_forall2] at hm
      clear h
      induction hm with
      | nil => rfl
      | cons h1 _ ih =>
        rw [ih]
        congr 1
        simp only [pyIndex] at h1
        split at h1
        · split at h1
          · simpa [eq_comm] using Except.ok.inj h1
          · cases h1
        · omega
    subst hix
    exact (Except.ok.inj h).symm

/-- What has been checked when the first part of `verify()` passes. -/
theorem verifyInverse_inv {I : TfI K S} {s : S} {Y Y' Z : Snap K} (hc : I.Careful s)
    (h : I.verifyInverse s Y = .ok (Y', Z)) :
    Y' = Y ∧ I.transform s true Y = (Z, .ok Z) ∧
      ∃ R, I.inverse s true Z none = (R, .ok R) ∧ R.Near Y := by
  simp only [TfI.verifyInverse, bind, Except.bind, hc.transform, hc.inverse] at h
  cases h1 : (I.transform s false Y).2 with
  | error e => simp only [h1] at h; cases h
  | ok Z1 =>
  simp only [h1] at h
  cases h2 : insist (sameDims Z1 Y) with
  | error e => simp only [h2] at h; cases h
  | ok u =>
  simp only [h2] at h
  obtain ⟨A, rA, hA⟩ : ∃ A r, I.transform s true Y = (A, r) := ⟨_, _, rfl⟩
  simp only [hA] at h
  cases rA with
  | error e => cases h
  | ok Z2 =>
  simp only at h
  cases h3 : insist (decide (A = Z2)) with
  | error e => simp only [h3] at h; cases h
  | ok u =>
  simp only [h3] at h
  have hAZ : A = Z2 := by simpa using insist_ok h3
  subst hAZ
  cases h4 : (I.inverse s false A none).2 with
  | error e => simp only [h4] at h; cases h
  | ok R1 =>
  simp only [h4] at h
  cases h5 : insist (sameDims R1 Y) with
  | error e => simp only [h5] at h; cases h
  | ok u =>
  simp only [h5] at h
  obtain ⟨B, rB, hB⟩ : ∃ B r, I.inverse s true A none = (B, r) := ⟨_, _, rfl⟩
  simp only [hB] at h
  cases rB with
  | error e => cases h
  | ok R2 =>
  simp only at h
  cases h6 : insist (decide (B = R2)) with
  | error e => simp only [h6] at h; cases h
  | ok u =>
  simp only [h6] at h
  have hBR : B = R2 := by simpa using insist_ok h6
  subst hBR
  cases h7 : insist (allClose B Y) with
  | error e => simp only [h7] at h; cases h
  | ok u =>
  simp only [h7, pure, Except.pure, Except.ok.injEq, Prod.mk.injEq] at h
  obtain ⟨rfl, rfl⟩ := h
  exact ⟨rfl, hA, B, hB, allClose_near (insist_ok h7)⟩

theorem verifyLocs_inv {I : TfI K S} {s : S} {locs : List Nat} {Y Z : Snap K}
    (h : I.verifyLocs s locs Y Z = .ok ()) :
    ∃ W, (I.inverse s false (Z.pick locs) (some (.idx (locs.map fun i : Nat => (i : Int))))).2 = .ok W ∧
      W.Near (Y.pick locs) := by
  simp only [TfI.verifyLocs, bind, Except.bind] at h
  cases h1 : Z.atLocs locs with
  | error e => simp only [h1] at h; cases h
  | ok Zl =>
  have := atLocs_inv h1
  subst this
  simp only [h1] at h
  cases h2 : (I.inverse s false (Z.pick locs) (some (.idx (locs.map fun i : Nat => (i : Int))))).2 with
  | error e => simp only [h2] at h; cases h
  | ok W =>
  simp only [h2] at h
  cases h3 : Y.atLocs locs with
  | error e => simp only [h3] at h; cases h
  | ok Yl =>
  have := atLocs_inv h3
  subst this
  simp only [h3, compareAt, bind, Except.bind] at h
  cases h4 : insist (sameDims W (Y.pick locs)) with
  | error e => simp only [h4] at h; cases h
  | ok u =>
  simp only [h4] at h
  exact ⟨W, rfl, allClose_near (insist_ok h)⟩

theorem compareRel_inv [IsStrictOrderedRing K] {sqrt : K → K} (hsqrt : ∀ x, 0 ≤ sqrt x) {tol : K} {E F : Snap K}
    (h : compareRel sqrt tol E F = .ok ()) :
    ∃ G, E.minus F = .ok G ∧ G.norm sqrt ≤ tol * F.norm sqrt := by
  have hn : ∀ Y : Snap K, 0 ≤ Y.norm sqrt := by
    intro Y
    cases Y <;> exact hsqrt _
  simp only [compareRel, bind, Except.bind] at h
  cases h1 : E.minus F with
  | error e => simp only [h1] at h; cases h
  | ok G =>
  simp only [h1] at h
  refine ⟨G, rfl, ?_⟩
  have h2 := insist_ok h
  simp only [ratio] at h2
  by_cases hF : F.norm sqrt = 0
  · rw [if_pos hF] at h2
    by_cases hG : G.norm sqrt = 0
    · rw [hF, hG, mul_zero]
    · rw [if_neg hG] at h2
      cases h2
  · rw [if_neg hF] at h2
    simp only [Val.exceeds, Bool.not_eq_true', decide_eq_false_iff_not, not_lt] at h2
    exact (div_le_iff₀ (lt_of_le_of_ne (hn F) (Ne.symm hF))).1 h2

theorem verifyDdts_inv [IsStrictOrderedRing K] {sqrt : K → K} (hsqrt : ∀ x, 0 ≤ sqrt x) {tol : K} {I : TfI K S}
    {s : S} {Y Z : Snap K} (hc : I.Careful s) (h : I.verifyDdts sqrt s tol Y Z = .ok ()) :
    (I.ddts s false Y).2 = .error .notImplemented ∨ ∃ D E F G, Y.ddt verifyTimes = .ok D ∧
      (I.ddts s false D).2 = .ok E ∧ Z.ddt verifyTimes = .ok F ∧ E.minus F = .ok G ∧
      G.norm sqrt ≤ tol * F.norm sqrt ∧ I.ddts s true D = ((I.ddts s true D).1, .ok (I.ddts s true D).1) := by
  unfold TfI.verifyDdts at h
  have hcY := hc.ddts Y
  obtain ⟨A, r, hA⟩ : ∃ A r, I.ddts s false Y = (A, r) := ⟨_, _, rfl⟩
  rw [hA] at h hcY ⊢
  simp only at hcY
  subst hcY
  cases r with
  | error e => cases e <;> first | exact Or.inl rfl | cases h
  | ok W =>
    right
    simp only [TfI.compareDdts, bind, Except.bind] at h
    cases h1 : A.ddt verifyTimes with
    | error e => simp only [h1] at h; cases h
    | ok D =>
    simp only [h1, hc.ddts] at h
    cases h2 : (I.ddts s false D).2 with
    | error e => simp only [h2] at h; cases h
    | ok E =>
    simp only [h2] at h
    cases h3 : Z.ddt verifyTimes with
    | error e => simp only [h3] at h; cases h
    | ok F =>
    simp only [h3] at h
    cases h4 : compareRel sqrt tol E F with
    | error e => simp only [h4] at h; cases h
    | ok u =>
    simp only [h4] at h
    obtain ⟨G, hG1, hG2⟩ := compareRel_inv hsqrt h4
    refine ⟨D, E, F, G, rfl, h2, rfl, hG1, hG2, ?_⟩
    obtain ⟨B, rB, hB⟩ : ∃ B r, I.ddts s true D = (B, r) := ⟨_, _, rfl⟩
    rw [hB] at h ⊢
    cases rB with
    | error e => cases h
    | ok E2 =>
      have : B = E2 := by simpa using insist_ok h
      rw [this]

/-- C89: what an accepting `verify(tol)` has established, for any transformer (built-in or not) that leaves its
argument alone when `inplace=False`: the in-place `transform` and `inverse_transform` work on their argument, the
drawn states are recovered up to the tolerances of `numpy.allclose`, also at the drawn locations, and unless
`transform_ddts` is not implemented, transformed finite differences of the drawn states and finite differences
of the transformed states have a relative difference of at most `tol`. -/
theorem C89_accepted [IsStrictOrderedRing K] {sqrt : K → K} (hsqrt : ∀ x, 0 ≤ sqrt x) {tol : K} {I : TfI K S}
    {s : S} {d : Draw K} (hc : I.Careful s) (h : I.verify sqrt s tol d = .ok ()) :
    (I.dim s).isSome ∧ ∃ Z R W, I.transform s true d.snap = (Z, .ok Z) ∧
      I.inverse s true Z none = (R, .ok R) ∧ R.Near d.snap ∧
      (I.inverse s false (Z.pick d.locs) (some (.idx (d.locs.map fun i : Nat => (i : Int))))).2 = .ok W ∧
      W.Near (d.snap.pick d.locs) ∧
      ((I.ddts s false d.snap).2 = .error .notImplemented ∨ ∃ D E F G, d.snap.ddt verifyTimes = .ok D ∧
        (I.ddts s false D).2 = .ok E ∧ Z.ddt verifyTimes = .ok F ∧ E.minus F = .ok G ∧
        G.norm sqrt ≤ tol * F.norm sqrt ∧ I.ddts s true D = ((I.ddts s true D).1, .ok (I.ddts s true D).1)) := by
  unfold TfI.verify TfI.verifyWith at h
  split at h
  · cases h
  rename_i hd
  refine ⟨Option.isSome_iff_ne_none.2 (by simpa using hd), ?_⟩
  simp only [bind, Except.bind] at h
  cases h1 : I.verifyInverse s d.snap with
  | error e => simp only [h1] at h; cases h
  | ok YZ =>
  obtain ⟨Y, Z⟩ := YZ
  simp only [h1] at h
  obtain ⟨rfl, a1, R, a2, a3⟩ := verifyInverse_inv hc h1
  cases h2 : I.verifyLocs s d.locs d.snap Z with
  | error e => simp only [h2] at h; cases h
  | ok u =>
  simp only [h2] at h
  obtain ⟨W, b1, b2⟩ := verifyLocs_inv h2
  exact ⟨Z, R, W, a1, a2, a3, b1, b2, verifyDdts_inv hsqrt hc h⟩

end Sound

section Careful

variable [Field K] [LinearOrder K]

omit [Field K] [LinearOrder K] in
theorem onBuffer_keeps (f : Snap K → Except Err (Snap K)) (Y : Snap K) : (onBuffer false f Y).1 = Y := by
  unfold onBuffer
  split <;> rfl

/-- The built-in transformers for a single variable leave their argument alone when `inplace=False`, whatever
their state. -/
theorem C89_builtin_careful (sq : K → K) (s : Basic K) : (basicI sq).Careful s := by
  rcases s with s | s | s | s <;>
    exact ⟨fun Y => onBuffer_keeps _ Y, fun Y _ => onBuffer_keeps _ Y, fun Y => onBuffer_keeps _ Y⟩

end Careful

/-! ### Refusal -/

section Refuse

variable [Field K] [LinearOrder K]

/-- C89: without a state dimension `verify()` raises `AttributeError`. -/
theorem C89_untrained (sqrt : K → K) {I : TfI K S} {s : S} (h : I.dim s = none) (tol : K) (d : Draw K) :
    I.verify sqrt s tol d = .error .attribute := by
  simp [TfI.verify, TfI.verifyWith, h]

/-- C89: a multi-variable transformer is refused with the error of its first refused transformer. -/
theorem C89_multi_refused {D : Type} (sqrt : K → K) (I : TfI K S) {verify : S → D → Except Err Unit}
    {ts : List S} {ds : List D} {t : S} {d' : D} {e : Err} (ts' : List S) (ds' : List D)
    (h : Forall₂ (fun t d => verify t d = .ok ()) ts ds) (he : verify t d' = .error e) (tol : K) (d : Draw K) :
    multiVerify sqrt I verify (ts ++ t :: ts') tol (ds ++ d' :: ds') d = .error e := by
  have : verifyEach verify (ts ++ t :: ts') (ds ++ d' :: ds') = .error e := by
    induction h with
    | nil => simp only [nil_append, verifyEach, he, bind, Except.bind]
    | cons h1 _ ih => simp only [cons_append, verifyEach, h1, bind, Except.bind, ih]
  simp only [multiVerify, this, bind, Except.bind]

variable [IsStrictOrderedRing K]

/-- C89 fails for `ShiftScaleTransformer(byrow=True, scaling=None)`: after calibration with any data
`verify()` raises `TypeError`, for every tolerance and whatever the random numbers, although the transformer is
invertible and differentiates correctly (`C35_shiftscale_invertible`, `C37_shiftscale_differentiates`). -/
theorem C89_unscaled_byrow_refused (sqrt sq : K → K) {centering verbose b : Bool} {name : Option String}
    {s s' : Sst K} {Q Q' Z : Snap K} (hm : Sst.make centering none true name verbose = .ok s)
    (hf : (sstI sq).fitTransform s b Q = (s', Q', .ok Z)) (tol : K) {d : Draw K} (hd : d.Fits Q.len Q.len) :
    (sstI sq).verify sqrt s' tol d = .error .type := by
  have hI := C35_shiftscale_invertible hf
  obtain ⟨Z, hZ, e1, e2⟩ := verifyInverse_ok hI hd.shaped
  have hl := locate_nat hd.bound
  have h3 : (sstI sq).verifyLocs s' d.locs d.snap Z = .error .type := by
    simp only [TfI.verifyLocs, atLocs_ok (Y := Z) (locs := d.locs) (by rw [hZ.len]; exact hd.bound), bind,
      Except.bind]
    rw [C35_locs_unscaled_byrow_raises sq hm hf (Z.pick d.locs) _ d.locs hl (Snap.len_pick _ _) false]
  simp only [TfI.verify, TfI.verifyWith, hI.dim, Option.isNone_some, Bool.false_eq_true, if_false, e2, bind,
    Except.bind, h3]

/-- `inverse_transform` refuses states that do not have one row per location. -/
def TfI.CountsLocs (I : TfI K S) (s : S) : Prop :=
  ∀ b Y is, Y.len ≠ is.length → I.inverse s b Y (some (.idx is)) = (Y, .error .value)

omit [LinearOrder K] [IsStrictOrderedRing K] in
theorem shift_countsLocs (s : Shift K) : shiftI.CountsLocs s := fun b Y is h => by
  simp only [shiftI]
  refine onBuffer_error (f := fun Y => s.inverse Y (some (.idx is))) ?_
  simp only [Shift.inverse, checkLocs, bind, Except.bind, ne_eq, h, not_false_eq_true, if_true]

omit [IsStrictOrderedRing K] in
theorem scale_countsLocs {s : Scale K} {n : Nat} (hs : s.n = some n) : scaleI.CountsLocs s := fun b Y is h => by
  simp only [scaleI]
  refine onBuffer_error (f := fun Y => s.inverse Y (some (.idx is))) ?_
  simp only [Scale.inverse, hs, Option.isNone_some, Bool.false_eq_true, if_false, checkLocs, bind, Except.bind,
    ne_eq, h, not_false_eq_true, if_true, pure, Except.pure]

omit [Field K] [LinearOrder K] [IsStrictOrderedRing K] in
theorem null_countsLocs (s : Null) : (nullI (K := K)).CountsLocs s := fun b Y is h => by
  simp only [nullI]
  refine onBuffer_error (f := fun Y => s.inverse Y (some (.idx is))) ?_
  simp only [Null.inverse, checkLocs, bind, Except.bind, ne_eq, h, not_false_eq_true, if_true]

omit [IsStrictOrderedRing K] in
theorem sst_countsLocs (sq : K → K) {s : Sst K} (hs : s.isTrained = true) : (sstI sq).CountsLocs s :=
  fun b Y is h => by
  simp only [sstI]
  refine onBuffer_error (f := fun Y => s.inverse Y (some (.idx is))) ?_
  simp only [Sst.inverse, hs, Bool.not_true, Bool.false_eq_true, if_false, checkLocs, bind, Except.bind,
    ne_eq, h, not_false_eq_true, if_true, pure, Except.pure]

omit [Field K] [LinearOrder K] [IsStrictOrderedRing K] in
theorem len_slice (Y : Snap K) (a b : Nat) (h : b ≤ Y.len) : (Y.slice a b).len = b - a := by
  cases Y <;> simp [Snap.slice, Snap.len] at h ⊢ <;> omega

omit [LinearOrder K] [IsStrictOrderedRing K] in
/-- A multi-variable transformer with at least two variables cannot undo the transformation at locations of
the joint state. -/
theorem multiInverse_joint {I : TfI K S} {ts : List S} {ns : List Nat} (h2 : 2 ≤ ts.length)
    (hd : Forall₂ (fun t n => I.dim t = some n) ts ns) (hc : ∀ t ∈ ts, I.CountsLocs t) (b : Bool) (W : Snap K)
    (is : List Int) (hW : W.len = is.length) (hne : is ≠ []) :
    (multiInverse I ts b W (some (.idx is))).2 = .error .value := by
  have hpos : 0 < is.length := length_pos_iff.2 hne
  simp only [multiInverse, (multiDim_eq hd).1]
  split
  · rfl
  · rw [splitEven]
    by_cases hm : W.len % ts.length = 0
    · rw [if_pos hm]
      match ts, h2 with
      | t :: u :: us, _ =>
        simp only [length_cons, replicate_succ, splitSizes]
        obtain ⟨q, hq⟩ : ∃ q, q = W.len / (us.length + 1 + 1) := ⟨_, rfl⟩
        rw [← hq]
        have hlt : q < W.len := by rw [hq]; exact Nat.div_lt_self (by omega) (by omega)
        have h0 := hc t mem_cons_self b (W.slice 0 (0 + q)) is (by rw [len_slice _ _ _ (by omega)]; omega)
        simp only [eachPart, h0, multiResult]
    · rw [if_neg hm]

/-- C89 fails for pipelines that end in a multi-variable transformer: with two or more variables, `verify()`
raises `ValueError` for every tolerance and whatever the random numbers (three or more rows), although the
pipeline is invertible: the drawn locations refer to the joint state, but the multi-variable transformer takes
them as locations within each variable. -/
theorem C89_pipeline_of_multi_refused {J : TfI K T} {I : TfI K S} (sqrt : K → K) {us : List (T ⊕ List S)}
    {ts : List S} {ns : List Nat} (h2 : 2 ≤ ts.length) (h3 : 3 ≤ ns.sum)
    (hu : ∀ u ∈ us, (sumI J (multiI I)).Invertible u ns.sum) (hI : Forall₂ I.Invertible ts ns)
    (hc : ∀ t ∈ ts, I.CountsLocs t) (tol : K) {d : Draw K} (hd : d.Fits ns.sum ns.sum) :
    (pipeI (sumI J (multiI I))).Invertible (us ++ [.inr ts]) ns.sum ∧
      (pipeI (sumI J (multiI I))).verify sqrt (us ++ [.inr ts]) tol d = .error .value := by
  have hne : ts ≠ [] := by rintro rfl; simp at h2
  have hM := C35_multi_invertible hne hI
  have hP : (pipeI (sumI J (multiI I))).Invertible (us ++ [.inr ts]) ns.sum := by
    refine C35_pipeline_invertible (by simp) fun u hum => ?_
    rcases mem_append.1 hum with h | h
    · exact hu u h
    · rw [mem_singleton.1 h]
      exact sum_invertible_inr hM
  refine ⟨hP, ?_⟩
  obtain ⟨Z, hZ, e1, e2⟩ := verifyInverse_ok hP hd.shaped
  have hll : d.locs ≠ [] := by
    intro h0
    have := hd.count
    rw [h0] at this
    simp only [length_nil] at this
    omega
  have h4 : ((pipeI (sumI J (multiI I))).inverse (us ++ [.inr ts]) false (Z.pick d.locs)
      (some (.idx (d.locs.map fun i : Nat => (i : Int))))).2 = .error .value := by
    have he : (us ++ [Sum.inr ts]).isEmpty = false := by simp
    simp only [pipeI, he, Bool.false_eq_true, if_false, reverse_append, reverse_cons, reverse_nil, nil_append,
      cons_append, chain]
    have h5 := multiInverse_joint h2 (hI.imp fun _ _ h => h.dim) hc false (Z.pick d.locs)
      (d.locs.map fun i : Nat => (i : Int)) (by rw [Snap.len_pick, length_map]) (by simpa using hll)
    simp only [sumI, multiI]
    obtain ⟨A, r, hA⟩ : ∃ A r, multiInverse I ts false (Z.pick d.locs)
      (some (.idx (d.locs.map fun i : Nat => (i : Int)))) = (A, r) := ⟨_, _, rfl⟩
    rw [hA] at h5 ⊢
    simp only at h5
    subst h5
    rfl
  have h6 : (pipeI (sumI J (multiI I))).verifyLocs (us ++ [.inr ts]) d.locs d.snap Z = .error .value := by
    simp only [TfI.verifyLocs, atLocs_ok (Y := Z) (locs := d.locs) (by rw [hZ.len]; exact hd.bound), bind,
      Except.bind, h4]
  simp only [TfI.verify, TfI.verifyWith, hP.dim, Option.isNone_some, Bool.false_eq_true, if_false, e2, bind,
    Except.bind, h6]

end Refuse

/-! ### Overwritten arguments -/

/-- A transformer whose `transform` always works on its argument and, with `inplace=False`, returns a copy of
the result. -/
def overwriteI (I : TfI K S) : TfI K S := { I with transform := fun s _ Y => I.transform s true Y }

/-- C89: acceptance does not mean that `inplace=False` is respected: however a consistent transformer is changed
to overwrite its argument, `verify()` still accepts it, for every `tol ≥ 0` and whatever the random numbers. -/
theorem C89_overwriting_accepted [Field K] [LinearOrder K] [IsStrictOrderedRing K] {sqrt : K → K}
    (hsqrt : sqrt 0 = 0) {tol : K} (htol : 0 ≤ tol) {I : TfI K S} {s : S} {n : Nat} (hI : I.Invertible s n)
    (hA : I.InvertibleAt s n) (hD : I.Differentiates s n) (hE : I.Estimates s n) {d : Draw K} (hd : d.Fits n n) :
    (overwriteI I).verify sqrt s tol d = .ok () ∧
      ∀ Y c, Y.Shaped n c → ∃ Z, I.transform s false Y = (Y, .ok Z) ∧
        (overwriteI I).transform s false Y = (Z, .ok Z) := by
  refine ⟨?_, fun Y c hY => ?_⟩
  · obtain ⟨Y1, hY1, a1, _⟩ := hI.forth _ _ hd.shaped
    obtain ⟨Z, hZ, b1, b2⟩ := hI.forth _ _ hY1
    have h1 : (overwriteI I).verifyInverse s d.snap = .ok (Y1, Z) := by
      simp only [TfI.verifyInverse, overwriteI, a1, b1, b2, yields, Bool.false_eq_true, if_false, if_true, bind,
        Except.bind, sameDims_self, allClose_self, insist, decide_true, pure, Except.pure]
    have h2 : (overwriteI I).verifyLocs s d.locs Y1 Z = .ok () :=
      verifyLocs_ok (I := I) hA hY1 hZ hd.bound (b1 false)
    have h3 : (overwriteI I).verifyDdts sqrt s tol Y1 Z = .ok () :=
      verifyDdts_ok (I := I) hsqrt htol hD hE hY1 (b1 false)
    have hdim : (overwriteI I).dim s = some n := hI.dim
    simp only [TfI.verify, TfI.verifyWith, hdim, Option.isNone_some, Bool.false_eq_true, if_false, h1, bind,
      Except.bind, h2, h3]
  · obtain ⟨Z, _, a1, _⟩ := hI.forth Y c hY
    exact ⟨Z, a1 false, a1 true⟩

/-! ### Examples -/

section Examples

/-- Five rows with 20 entries each, and one location. -/
def drawEx : Draw ℚ :=
  ⟨(range 5).map fun i : Nat => (range 20).map fun j : Nat => ((i + j * j : Nat) : ℚ) / 7, [3]⟩

theorem drawEx_fits : drawEx.Fits 5 5 where
  rows := by simp [drawEx]
  width := by simp [drawEx]
  count := rfl
  sorted := by simp [drawEx]
  bound := by simp [drawEx]

/-- A function in place of the square root: nonnegative, zero at zero. -/
def sqrtEx : ℚ → ℚ := fun x => if x < 0 then 0 else x

/-- `C89_shift` applies to a nonzero reference snapshot. -/
example : shiftI.verify sqrtEx ⟨[1, -2, 3, 0, 5], none⟩ (1 / 10 ^ 4) drawEx = .ok () :=
  C89_shift (by simp [sqrtEx]) (by decide +kernel) _ drawEx_fits

/-- The ratio is tested: a `transform_ddts` without the scaling factor is refused. -/
example : ({ scaleI with ddts := fun _ b Y => yields b Y Y } : TfI ℚ (Scale ℚ)).verify sqrtEx
    ⟨.num 2, some 5, none⟩ (1 / 10 ^ 4) drawEx = .error .verification := by decide +kernel

/-- The inverse is tested: a wrong `inverse_transform` is refused. -/
example : ({ shiftI with inverse := fun _ b Y _ => yields b Y Y } : TfI ℚ (Shift ℚ)).verify sqrtEx
    ⟨[1, -2, 3, 0, 5], none⟩ (1 / 10 ^ 4) drawEx = .error .verification := by decide +kernel

/-- Locations are tested: an `inverse_transform` that ignores them is refused. -/
example : ({ shiftI with inverse := fun s b Y l => match l with
    | none => shiftI.inverse s b Y none
    | some _ => yields b Y Y } : TfI ℚ (Shift ℚ)).verify sqrtEx
    ⟨[1, -2, 3, 1, 5], none⟩ (1 / 10 ^ 4) drawEx = .error .verification := by decide +kernel

/-- `C89_unscaled_byrow_refused` applies. -/
example : ∃ s s' Q Q' Z, Sst.make (K := ℚ) true none true none false = .ok s ∧
    (sstI sqrtEx).fitTransform s false Q = (s', Q', .ok Z) ∧ Q.len = 5 ∧
    (sstI sqrtEx).verify sqrtEx s' 1 drawEx = .error .type := by
  refine ⟨_, _, .mat 1 [[1], [-2], [3], [0], [5]], _, _, rfl, rfl, rfl, ?_⟩
  exact C89_unscaled_byrow_refused (b := false) (centering := true) (verbose := false) (name := none) sqrtEx sqrtEx
    (Q := .mat 1 [[1], [-2], [3], [0], [5]]) rfl rfl 1 drawEx_fits

/-- `C89_pipeline_of_multi_refused` applies to a shift followed by two variables. -/
example : (pipeI (sumI (shiftI (K := ℚ)) (multiI (nullI (K := ℚ))))).verify sqrtEx
    ([.inl ⟨[1, -2, 3, 0, 5], none⟩] ++ [.inr [⟨some 2, none⟩, ⟨some 3, none⟩]]) 1 drawEx = .error .value := by
  refine (C89_pipeline_of_multi_refused (ns := [2, 3]) sqrtEx (by simp) (by simp) ?_ ?_ ?_ 1 drawEx_fits).2
  · intro u hu
    rw [mem_singleton.1 hu]
    exact sum_invertible_inl (shift_affine _).invertible
  · exact .cons (null_affine rfl).invertible (.cons (null_affine rfl).invertible .nil)
  · exact fun t _ => null_countsLocs t

/-- `C89_multi` applies to two variables of different sizes, and overwriting is visible. -/
example : multiVerify sqrtEx (nullI (K := ℚ)) (fun t d => nullI.verify sqrtEx t (1 / 10 ^ 4) d)
    [⟨some 2, none⟩, ⟨some 3, none⟩] (1 / 10 ^ 4)
    [⟨drawEx.states.take 2, []⟩, ⟨drawEx.states.take 3, [1]⟩] drawEx = .ok () := by
  have hd : ∀ n nx (d : Draw ℚ), d.states.length = n → (∀ row ∈ d.states, row.length = 20) →
      d.locs.length = nx / 3 → d.locs.Pairwise (· < ·) → (∀ i ∈ d.locs, i < nx) → d.Fits n nx :=
    fun _ _ _ h1 h2 h3 h4 h5 => ⟨h1, h2, h3, h4, h5⟩
  refine C89_multi (ns := [2, 3]) (by simp [sqrtEx]) (by decide +kernel) (by simp) (.cons ?_ (.cons ?_ .nil))
    (.cons (null_affine rfl).invertible (.cons (null_affine rfl).invertible .nil))
    (.cons (null_affine rfl).differentiates (.cons (null_affine rfl).differentiates .nil))
    (.cons (null_affine rfl).estimates (.cons (null_affine rfl).estimates .nil)) drawEx_fits.shaped ?_
  · exact C89_null (by simp [sqrtEx]) (by decide +kernel) rfl (hd 2 2 _ (by simp [drawEx])
      (fun row hr => drawEx_fits.width row (mem_of_mem_take hr)) rfl (by simp) (by simp))
  · exact C89_null (by simp [sqrtEx]) (by decide +kernel) rfl (hd 3 3 _ (by simp [drawEx])
      (fun row hr => drawEx_fits.width row (mem_of_mem_take hr)) rfl (by simp) (by simp))
  · intro nx h
    have h1 := h 2 (by simp)
    have h2 := h 3 (by simp)
    omega

example : ((overwriteI (scaleI (K := ℚ))).transform ⟨.num 2, some 1, none⟩ false (.vec [3])).1 = .vec [6] := by
  decide +kernel

end Examples

end Opinf
