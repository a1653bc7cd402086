import Verif.Lemmas.Verify

/-!
# C89: `verify()` of transformers

`verify()` is meant to accept a transformer exactly if `inverse_transform` undoes `transform` (also at selected
locations) and `transform_ddts` is the derivative of `transform`. For every outcome of the random numbers:

* a transformer that meets these contracts is accepted, in particular every calibrated built-in transformer
  except `ShiftScaleTransformer(byrow=True, scaling=None)`, pipelines of such transformers, and multi-variable
  transformers made of them;
* an accepted transformer recovers the drawn states up to the tolerances of `numpy.allclose`, also at the drawn
  locations, and its `transform_ddts` agrees with finite differences of the transformed states up to `tol`;
* `ShiftScaleTransformer(byrow=True, scaling=None)` is always refused (`TypeError`), as is a pipeline that ends
  in a multi-variable transformer with two or more variables (`ValueError`), although both are consistent;
* a transformer that overwrites its argument although `inplace=False` may be accepted.
-/

namespace Opinf

open List

variable {K S T : Type}

/-- Possible random numbers for `n` rows and locations below `nx`: a matrix with `n` rows and 20 columns and
`nx // 3` different locations in increasing order. -/
structure Draw.Fits (d : Draw K) (n nx : Nat) : Prop where
  rows : d.states.length = n
  width : ∀ row ∈ d.states, row.length = 20
  count : d.locs.length = nx / 3
  sorted : d.locs.Pairwise (· < ·)
  bound : ∀ i ∈ d.locs, i < nx

theorem Draw.Fits.shaped {d : Draw K} {n nx : Nat} (h : d.Fits n nx) : d.snap.Shaped n (some 20) :=
  ⟨h.width, h.rows, rfl⟩

/-- Finite differences of the transformed states are the transformed finite differences. -/
def TfI.Estimates [Field K] [LinearOrder K] (I : TfI K S) (s : S) (n : Nat) : Prop :=
  ∀ t : List K, t.Pairwise (· < ·) → ∀ Y D, Y.Shaped n (some t.length) → Y.ddt t = .ok D →
    ∃ Z E, Z.Shaped n (some t.length) ∧ (∀ b, I.transform s b Y = yields b Y Z) ∧
      (∀ b, I.ddts s b D = yields b D E) ∧ Z.ddt t = .ok E

section Contracts

variable [Field K] [LinearOrder K] [IsStrictOrderedRing K]

theorem TfI.Affine.estimates {I : TfI K S} {s : S} {n : Nat} {a c : Nat → K} (h : I.Affine s n a c) :
    I.Estimates s n := by
  intro t ht Y D hY hD
  have hDs := ddt_shaped hY hD
  refine ⟨_, _, hY.rowMap _, fun b => h.transform b Y hY.len, fun b => h.ddts b D hDs.len, ?_⟩
  cases Y with
  | vec xs => cases hD
  | mat k rows =>
    obtain ⟨rfl, ds, rfl, hm⟩ := ddt_mat hD
    simp only [Snap.rowMap]
    apply ddt_mat_of
    have hw := hY.wf
    have hf := mapM_ok_forall2.1 hm
    rw [mapM_ok_forall2, forall₂_iff_get]
    refine ⟨by simp [hf.length_eq], fun i h1 h2 => ?_⟩
    simp only [length_mapIdx] at h1 h2
    simp only [get_eq_getElem, getElem_mapIdx]
    have := (forall₂_iff_get.1 hf).2 i h1 h2
    simp only [get_eq_getElem] at this
    exact gradRow_affine (a i) (c i) ht (hw _ (getElem_mem h1)) this

omit [IsStrictOrderedRing K] in
theorem sum_estimates_inl {I : TfI K S} {J : TfI K T} {s : S} {n : Nat}
    (h : I.Estimates s n) : (sumI I J).Estimates (.inl s) n := h

omit [IsStrictOrderedRing K] in
theorem sum_estimates_inr {I : TfI K S} {J : TfI K T} {t : T} {n : Nat}
    (h : J.Estimates t n) : (sumI I J).Estimates (.inr t) n := h

omit [IsStrictOrderedRing K] in
theorem pipeline_estimates {I : TfI K S} {n : Nat} {ts : List S} (hne : ts ≠ [])
    (h : ∀ t ∈ ts, I.Estimates t n) : (pipeI I).Estimates ts n := by
  have he : ts.isEmpty = false := by simpa using hne
  intro t ht Y D hY hD
  simp only [pipeI, he, Bool.false_eq_true, if_false]
  clear he hne
  induction ts generalizing Y D with
  | nil => exact ⟨Y, D, hY, fun b => by cases b <;> rfl, fun b => by cases b <;> rfl, hD⟩
  | cons s ts ih =>
    obtain ⟨Y1, D1, hY1, e1, e2, hD1⟩ := h s (by simp) t ht Y D hY hD
    obtain ⟨Z, E, hZ, f1, f2, hE⟩ := ih (fun t ht => h t (by simp [ht])) Y1 D1 hY1 hD1
    exact ⟨Z, E, hZ, fun b => chain_cons (e1 b) (f1 true), fun b => chain_cons (e2 b) (f2 true), hE⟩

omit [IsStrictOrderedRing K] in
theorem multi_estimates {I : TfI K S} {ts : List S} {ns : List Nat} (hne : ts ≠ [])
    (hd : Forall₂ (fun t n => I.dim t = some n) ts ns) (h : Forall₂ I.Estimates ts ns) :
    (multiI I).Estimates ts ns.sum := by
  intro t ht Y D hY hD
  have hn : ns ≠ [] := forall2_ne_nil h hne
  have hP := joined_split hY hn
  obtain ⟨Ds, hJD, hDs⟩ := joined_ddt hn hP hD
  have key : ∀ {ts : List S} {ns : List Nat} {Ps Ds : List (Snap K)}, Forall₂ I.Estimates ts ns →
      Forall₂ (fun P n => Snap.Shaped P n (some t.length)) Ps ns →
      Forall₂ (fun P E => P.ddt t = .ok E) Ps Ds →
      ∃ Qs Es, Forall₂ (fun P n => Snap.Shaped P n (some t.length)) Qs ns ∧
        Forall₂ (fun P n => Snap.Shaped P n (some t.length)) Es ns ∧
        Forall₂ (fun Q E => Q.ddt t = .ok E) Qs Es ∧ ∀ b,
        Each3 (fun t P Q => I.transform t b P = yields b P Q) ts Ps Qs ∧
        Each3 (fun t P Q => I.ddts t b P = yields b P Q) ts Ds Es := by
    intro ts ns Ps Ds h1
    induction h1 generalizing Ps Ds with
    | nil =>
      intro hp hd
      cases hp
      cases hd
      exact ⟨[], [], .nil, .nil, .nil, fun b => ⟨.nil, .nil⟩⟩
    | cons hs _ ih =>
      intro hp hd
      cases hp with
      | cons p1 p2 =>
        cases hd with
        | cons d1 d2 =>
          obtain ⟨Q, E, hQ, e1, e2, e3⟩ := hs t ht _ _ p1 d1
          obtain ⟨Qs, Es, hQs, hEs, hQE, f⟩ := ih p2 d2
          exact ⟨Q :: Qs, E :: Es, .cons hQ hQs, .cons (ddt_shaped hQ e3) hEs, .cons e3 hQE, fun b =>
            ⟨.cons (e1 b) (f b).1, .cons (e2 b) (f b).2⟩⟩
  obtain ⟨Qs, Es, hQs, hEs, hQE, f⟩ := key h hP.parts hDs
  obtain ⟨Z, hQ⟩ := joined_of_parts hQs hn
  obtain ⟨E, hF⟩ := joined_of_parts hEs hn
  exact ⟨Z, E, hQ.whole, fun b => multiTransform_eq hd hP hQ (f b).1,
    fun b => multiDdts_eq hd hJD hF (f b).2, ddt_joined hn hQ hF hQE⟩

end Contracts

/-! ### Consistent transformers are accepted -/

section Accept

variable [Field K] [LinearOrder K] [IsStrictOrderedRing K]

theorem verifyInverse_ok {I : TfI K S} {s : S} {n : Nat} {c : Option Nat} {Y : Snap K} (hI : I.Invertible s n)
    (hY : Y.Shaped n c) : ∃ Z, Z.Shaped n c ∧ (∀ b, I.transform s b Y = yields b Y Z) ∧
      I.verifyInverse s Y = .ok (Y, Z) := by
  obtain ⟨Z, hZ, e1, e2⟩ := hI.forth Y c hY
  refine ⟨Z, hZ, e1, ?_⟩
  simp only [TfI.verifyInverse, e1, yields, Bool.false_eq_true, if_false, if_true, e2, bind, Except.bind,
    sameDims_shaped hZ hY, sameDims_self, allClose_self, insist, decide_true, pure, Except.pure]

omit [IsStrictOrderedRing K] in
theorem ddt_times_ok {Y : Snap K} {n : Nat} (hY : Y.Shaped n (some 20)) :
    ∃ D, Y.ddt (verifyTimes (K := K)) = .ok D := by
  cases Y with
  | vec xs => cases hY.cols
  | mat k rows =>
    have hk : k = 20 := by simpa [Snap.cols] using hY.cols
    subst hk
    have hrow : ∀ row ∈ rows, ∃ g, gradRow (verifyTimes (K := K)) row = .ok g := by
      intro row hr
      have hl : row.length = 20 := hY.wf row hr
      match row, hl with
      | f0 :: f1 :: f2 :: fs, _ => exact ⟨_, rfl⟩
    have : ∃ ds, rows.mapM (gradRow (verifyTimes (K := K))) = .ok ds := by
      clear hY
      induction rows with
      | nil => exact ⟨[], rfl⟩
      | cons r rows ih =>
        obtain ⟨g, hg⟩ := hrow r mem_cons_self
        obtain ⟨ds, hds⟩ := ih fun row hr => hrow row (mem_cons_of_mem _ hr)
        exact ⟨g :: ds, by rw [mapM_cons, hg, hds]; rfl⟩
    obtain ⟨ds, hds⟩ := this
    have := ddt_mat_of hds
    rw [verifyTimes_length] at this
    exact ⟨_, this⟩

theorem verifyDdts_ok {sqrt : K → K} (hsqrt : sqrt 0 = 0) {tol : K} (htol : 0 ≤ tol) {I : TfI K S} {s : S}
    {n : Nat} {Y Z : Snap K} (hD : I.Differentiates s n) (hE : I.Estimates s n) (hY : Y.Shaped n (some 20))
    (hZ : I.transform s false Y = yields false Y Z) : I.verifyDdts sqrt s tol Y Z = .ok () := by
  obtain ⟨_, W, _, _, _, hW, _⟩ := hD Y Y (some 20) 0 hY hY
  obtain ⟨D, hDd⟩ := ddt_times_ok hY
  obtain ⟨Z', E, _, e1, e2, e3⟩ := hE verifyTimes verifyTimes_sorted Y D (by rw [verifyTimes_length]; exact hY) hDd
  have hzz := yields_inj ((e1 false).symm.trans hZ)
  subst hzz
  simp only [TfI.verifyDdts, hW, yields, Bool.false_eq_true, if_false, TfI.compareDdts, hDd, e2, e3,
    if_true, bind, Except.bind, compareRel_self hsqrt htol, insist, decide_true]

theorem verifyLocs_ok {I : TfI K S} {s : S} {n : Nat} {c : Option Nat} {Y Z : Snap K} {locs : List Nat}
    (hA : I.InvertibleAt s n) (hY : Y.Shaped n c) (hZ : Z.Shaped n c) (hl : ∀ i ∈ locs, i < n)
    (ht : I.transform s false Y = yields false Y Z) : I.verifyLocs s locs Y Z = .ok () := by
  simp only [TfI.verifyLocs, atLocs_ok (Y := Y) (locs := locs) (by rw [hY.len]; exact hl),
    atLocs_ok (Y := Z) (locs := locs) (by rw [hZ.len]; exact hl), bind, Except.bind,
    hA Y Z c _ locs hY hZ (locate_nat hl) ht, yields, compareAt, sameDims_self, allClose_self, insist, if_true]

/-- C89: a transformer whose `transform`, `inverse_transform` (also at locations) and `transform_ddts` are
consistent is accepted by `verify(tol)` for every `tol ≥ 0`, whatever the random numbers. -/
theorem C89_accepts {sqrt : K → K} (hsqrt : sqrt 0 = 0) {tol : K} (htol : 0 ≤ tol) {I : TfI K S} {s : S}
    {n : Nat} (hI : I.Invertible s n) (hA : I.InvertibleAt s n) (hD : I.Differentiates s n)
    (hE : I.Estimates s n) {d : Draw K} (hd : d.Fits n n) : I.verify sqrt s tol d = .ok () := by
  obtain ⟨Z, hZ, e1, e2⟩ := verifyInverse_ok hI hd.shaped
  simp only [TfI.verify, TfI.verifyWith, hI.dim, Option.isNone_some, Bool.false_eq_true, if_false, e2, bind,
    Except.bind, verifyLocs_ok hA hd.shaped hZ hd.bound (e1 false),
    verifyDdts_ok hsqrt htol hD hE hd.shaped (e1 false)]

/-- ... also if it does not implement `transform_ddts`. -/
theorem C89_accepts_without_ddts {sqrt : K → K} (tol : K) {I : TfI K S} {s : S} {n : Nat}
    (hI : I.Invertible s n) (hA : I.InvertibleAt s n)
    (hD : ∀ Y, (I.ddts s false Y).2 = .error .notImplemented) {d : Draw K} (hd : d.Fits n n) :
    I.verify sqrt s tol d = .ok () := by
  obtain ⟨Z, hZ, e1, e2⟩ := verifyInverse_ok hI hd.shaped
  have h3 : ∀ Y Z, I.verifyDdts sqrt s tol Y Z = .ok () := by
    intro Y Z
    unfold TfI.verifyDdts
    have := hD Y
    rcases h : I.ddts s false Y with ⟨W, e | r⟩
    · rw [h] at this
      simp only [Except.error.injEq] at this
      subst this
      rfl
    · rw [h] at this
      cases this
  simp only [TfI.verify, TfI.verifyWith, hI.dim, Option.isNone_some, Bool.false_eq_true, if_false, e2, bind,
    Except.bind, verifyLocs_ok hA hd.shaped hZ hd.bound (e1 false), h3]

/-- C89: an affine transformation of each row, whatever its coefficients, is accepted. -/
theorem affine_accepted {sqrt : K → K} (hsqrt : sqrt 0 = 0) {tol : K} (htol : 0 ≤ tol) {I : TfI K S} {s : S}
    {n : Nat} {a c : Nat → K} (h : I.Affine s n a c) (h' : I.AffineAt s n a c) {d : Draw K} (hd : d.Fits n n) :
    I.verify sqrt s tol d = .ok () :=
  C89_accepts hsqrt htol h.invertible (h.invertibleAt h') h.differentiates h.estimates hd

/-- C89 for `ShiftTransformer`. -/
theorem C89_shift {sqrt : K → K} (hsqrt : sqrt 0 = 0) {tol : K} (htol : 0 ≤ tol) (s : Shift K) {d : Draw K}
    (hd : d.Fits s.qbar.length s.qbar.length) : shiftI.verify sqrt s tol d = .ok () :=
  affine_accepted hsqrt htol (shift_affine s) (shift_affineAt s) hd

/-- C89 for `ScaleTransformer`: every accepted scaling, after `fit` to any data. -/
theorem C89_scale {sqrt : K → K} (hsqrt : sqrt 0 = 0) {tol : K} (htol : 0 ≤ tol) {c : Coef K}
    {name : Option String} {s s' : Scale K} {Q : Snap K} (hm : Scale.make c name = .ok s)
    (hf : scaleI.fit s Q = (s', .ok ())) {d : Draw K} (hd : d.Fits Q.len Q.len) :
    scaleI.verify sqrt s' tol d = .ok () :=
  affine_accepted hsqrt htol (scale_affine (scale_fit_ready hm hf)) (scale_affineAt (scale_fit_ready hm hf)) hd

/-- C89 for `NullTransformer`. -/
theorem C89_null {sqrt : K → K} (hsqrt : sqrt 0 = 0) {tol : K} (htol : 0 ≤ tol) {s : Null} {n : Nat}
    (h : s.n = some n) {d : Draw K} (hd : d.Fits n n) : (nullI (K := K)).verify sqrt s tol d = .ok () :=
  affine_accepted hsqrt htol (null_affine h) (null_affineAt h) hd

/-- C89 for `ShiftScaleTransformer` after any successful calibration. Missing from the full claim: the
combination `byrow=True` with `scaling=None`, for which it is false (`C89_unscaled_byrow_refused`). -/
theorem C89_shiftscale_partial {sqrt sq : K → K} (hsqrt : sqrt 0 = 0) {tol : K} (htol : 0 ≤ tol)
    {s s' : Sst K} {Q Q' Z : Snap K} {b : Bool} (hb : s.byrow = true → s.scaling.isSome)
    (h : (sstI sq).fitTransform s b Q = (s', Q', .ok Z)) {d : Draw K} (hd : d.Fits Q.len Q.len) :
    (sstI sq).verify sqrt s' tol d = .ok () := by
  obtain ⟨hr, h1, h2⟩ := sst_fit_ready h
  exact affine_accepted hsqrt htol (sst_affine sq hr) (sst_affineAt sq hr (by rw [h1, h2]; exact hb)) hd

/-- C89 for pipelines of consistent transformers. -/
theorem C89_pipeline {sqrt : K → K} (hsqrt : sqrt 0 = 0) {tol : K} (htol : 0 ≤ tol) {I : TfI K S}
    {ts : List S} {n : Nat} (hne : ts ≠ []) (hI : ∀ t ∈ ts, I.Invertible t n)
    (hA : ∀ t ∈ ts, I.InvertibleAt t n) (hD : ∀ t ∈ ts, I.Differentiates t n)
    (hE : ∀ t ∈ ts, I.Estimates t n) {d : Draw K} (hd : d.Fits n n) :
    (pipeI I).verify sqrt ts tol d = .ok () :=
  C89_accepts hsqrt htol (C35_pipeline_invertible hne hI) (C35_pipeline_locs hne hI hA)
    (C37_pipeline_differentiates hne hD) (pipeline_estimates hne hE) hd

end Accept

/-! ### Multi-variable transformers -/

section Multi

variable [Field K] [LinearOrder K] [IsStrictOrderedRing K]

omit [IsStrictOrderedRing K] in
theorem verifyEach_ok {D : Type} {verify : S → D → Except Err Unit} {ts : List S} {ds : List D}
    (h : Forall₂ (fun t d => verify t d = .ok ()) ts ds) : verifyEach verify ts ds = .ok () := by
  induction h with
  | nil => rfl
  | cons h1 _ ih => simp only [verifyEach, h1, bind, Except.bind, ih]

theorem multiVerifyLocs_ok {I : TfI K S} {ts : List S} {ns : List Nat} {locs : List Nat} {Y Z : Snap K}
    {c : Option Nat} (hne : ts ≠ []) (hI : Forall₂ I.Invertible ts ns)
    (hA : ∀ nx, (∀ n ∈ ns, n = nx) → (∀ t ∈ ts, I.InvertibleAt t nx) ∧ ∀ i ∈ locs, i < nx)
    (hY : Y.Shaped ns.sum c) (hZ : Z.Shaped ns.sum c)
    (ht : (multiI I).transform ts false Y = yields false Y Z) :
    multiVerifyLocs I ts locs Y Z = .ok () := by
  have hd : Forall₂ (fun t n => I.dim t = some n) ts ns := hI.imp fun _ _ h => h.dim
  have hn : ns ≠ [] := forall2_ne_nil hI hne
  by_cases hone : (ts.map I.dim).dedup.length ≠ 1
  · rw [multiVerifyLocs, if_pos hone]
  · simp only [ne_eq, not_not] at hone
    obtain ⟨nx, hnx⟩ : ∃ nx, ∀ n ∈ ns, n = nx := by
      obtain ⟨o, ho⟩ := length_eq_one_iff.1 hone
      have hall : ∀ n ∈ ns, some n = o := by
        intro n hn
        have : some n ∈ (ts.map I.dim).dedup := by
          rw [mem_dedup, (multiDim_eq hd).2.2]
          exact mem_map_of_mem hn
        rw [ho] at this
        exact mem_singleton.1 this
      obtain ⟨m, hm⟩ := exists_mem_of_ne_nil ns hn
      exact ⟨m, fun n hn => Option.some.inj ((hall n hn).trans (hall m hm).symm)⟩
    obtain ⟨hAt, hl⟩ := hA nx hnx
    have hrep : ns = replicate ts.length nx := by
      rw [eq_replicate_iff]
      exact ⟨hI.length_eq.symm, hnx⟩
    subst hrep
    have hIt : ∀ t ∈ ts, I.Invertible t nx := by
      intro t htm
      obtain ⟨i, hi, rfl⟩ := mem_iff_getElem.1 htm
      have := (forall₂_iff_get.1 hI).2 i hi (by simpa using hi)
      simpa using this
    have hq : ts.length ≠ 0 := by simpa using hne
    have hat : ∀ {W : Snap K}, W.Shaped (replicate ts.length nx).sum c →
        ∃ Ws, multiSplit I ts W = .ok Ws ∧ ∃ Wls, Ws.mapM (fun Q => Q.atLocs locs) = .ok Wls ∧
          Snap.concat Wls = .ok (W.pick (eachVariable ts.length nx locs)) := by
      intro W hW
      have hP := joined_split hW hn
      refine ⟨_, multiSplit_ok hd hW.len, _, ?_, (joined_pick hP hq locs hl).concat⟩
      rw [mapM_ok_forall2, forall₂_map_right_iff, forall₂_same]
      intro P hPm
      apply atLocs_ok
      obtain ⟨i, hi, rfl⟩ := mem_iff_getElem.1 hPm
      have hs := (forall₂_iff_get.1 hP.parts).2 i hi (by rw [← hP.parts.length_eq]; exact hi)
      simp only [get_eq_getElem, getElem_replicate] at hs
      rw [hs.len]
      exact hl
    obtain ⟨Ys, a1, Yls, a2, a3⟩ := hat hY
    obtain ⟨Zs, b1, Zls, b2, b3⟩ := hat hZ
    have hinv := C35_multi_locs hne hIt hAt Y Z c (.idx (locs.map fun i : Nat => (i : Int))) locs
      (by simpa using hY) (locate_nat hl) ht false
    have hinv : multiInverse I ts false (Z.pick (eachVariable ts.length nx locs))
        (some (.idx (locs.map fun i : Nat => (i : Int)))) = _ := hinv
    rw [multiVerifyLocs, if_neg (by simpa using hone)]
    simp only [a1, a2, a3, b1, b2, b3, bind, Except.bind, hinv, yields, compareAt, sameDims_self,
      allClose_self, insist, if_true]

/-- C89 for `TransformerMulti`: consistent transformers for variables of any sizes, each accepted by its own
`verify()`. If all variables have the same size `nx`, they must also be consistent at locations (and the drawn
locations are below `nx`); otherwise locations are not tested. -/
theorem C89_multi {D : Type} {sqrt : K → K} (hsqrt : sqrt 0 = 0) {tol : K} (htol : 0 ≤ tol) {I : TfI K S}
    {verify : S → D → Except Err Unit} {ts : List S} {ns : List Nat} {ds : List D} {d : Draw K} (hne : ts ≠ [])
    (hv : Forall₂ (fun t d => verify t d = .ok ()) ts ds)
    (hI : Forall₂ I.Invertible ts ns) (hD : Forall₂ I.Differentiates ts ns) (hE : Forall₂ I.Estimates ts ns)
    (hs : d.snap.Shaped ns.sum (some 20))
    (hA : ∀ nx, (∀ n ∈ ns, n = nx) → (∀ t ∈ ts, I.InvertibleAt t nx) ∧ ∀ i ∈ d.locs, i < nx) :
    multiVerify sqrt I verify ts tol ds d = .ok () := by
  have hd : Forall₂ (fun t n => I.dim t = some n) ts ns := hI.imp fun _ _ h => h.dim
  have hM := C35_multi_invertible hne hI
  obtain ⟨Z, hZ, e1, e2⟩ := verifyInverse_ok hM hs
  simp only [multiVerify, verifyEach_ok hv, TfI.verifyWith, hM.dim, Option.isNone_some, Bool.false_eq_true,
    if_false, e2, bind, Except.bind, multiVerifyLocs_ok hne hI hA hs hZ (e1 false),
    verifyDdts_ok hsqrt htol (C37_multi_differentiates hne hd hD) (multi_estimates hne hd hE) hs (e1 false)]

end Multi

end Opinf
