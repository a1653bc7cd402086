import Verif.Props.TransformInv

/-!
# C38: calibration

`FitsThenTransforms` is in `Verif.Props.TransformSpec`. That transforming never changes the calibration
is part of the model: `transform`, `transform_ddts` and `inverse_transform` assign no attribute in the
source, and the model functions return no transformer.
-/

namespace Opinf

open List

variable {K S T : Type}

section Leaves

variable [Field K]

theorem op_shaped {f : K → K → K} {Y Z : Snap K} {c : Coef K} {n : Nat} {k : Option Nat}
    (h : Y.op f c = .ok Z) (hY : Y.Shaped n k) : Z.Shaped n k := by
  cases c with
  | num a =>
    simp only [Snap.op, Except.ok.injEq] at h
    rw [← h]
    exact hY.rowMap _
  | arr as =>
    simp only [Snap.op] at h
    split at h
    · simp only [Except.ok.injEq] at h
      rw [← h]
      exact hY.rowMap _
    · split at h
      · simp only [Except.ok.injEq] at h
        rw [← h]
        exact hY.rowMap _
      · cases h

omit [Field K] in
theorem checkShape_eq_ok {n : Nat} {Y : Snap K} (h : checkShape (some n) Y = .ok ()) : Y.len = n := by
  simp only [checkShape] at h
  split at h
  · assumption
  · cases h

/-- C38 for `ShiftTransformer`. -/
theorem C38_shift (s : Shift K) : shiftI.FitsThenTransforms s := by
  intro Y n c b s' Y' Z hY h
  simp only [shiftI, Prod.mk.injEq] at h
  obtain ⟨rfl, h⟩ := h
  have ht := onBuffer_eq_ok h
  have hc : checkShape (some s.qbar.length) Y = .ok () := by
    simp only [Shift.transform, bind, Except.bind] at ht
    split at ht
    · cases ht
    · assumption
  have hl := checkShape_eq_ok hc
  have hZ : Z.Shaped n c := by
    simp only [Shift.transform, hc, bind, Except.bind] at ht
    exact op_shaped ht hY
  refine ⟨hZ, ?_, ?_, fun b => ?_, fun b => onBuffer_ok ht⟩
  · simp only [shiftI, ← hl, hY.len]
  · simp only [shiftI, hc]
  · simp only [shiftI, onBuffer_ok ht]

omit [Field K] in
/-- C38 for `NullTransformer`. -/
theorem C38_null (s : Null) : (nullI (K := K)).FitsThenTransforms s := by
  intro Y n c b s' Y' Z hY h
  simp only [nullI, Prod.mk.injEq] at h
  obtain ⟨rfl, h⟩ := h
  have ht := onBuffer_eq_ok h
  simp only [Except.ok.injEq] at ht
  subst ht
  refine ⟨hY, ?_, rfl, fun b => ?_, fun b => ?_⟩
  · simp only [nullI, hY.len]
  · simp only [nullI, onBuffer_ok (f := Except.ok) rfl]
  · simp only [nullI]
    refine onBuffer_ok ?_
    simp [checkShape, bind, Except.bind, pure, Except.pure]

variable [LinearOrder K]

/-- C38 for `ScaleTransformer`. -/
theorem C38_scale (s : Scale K) : scaleI.FitsThenTransforms s := by
  intro Y n c b s' Y' Z hY h
  simp only [scaleI] at h
  split at h
  · simp at h
  rename_i s1 hf
  simp only [Prod.mk.injEq] at h
  obtain ⟨rfl, h⟩ := h
  have ht := onBuffer_eq_ok h
  have h1 : s1.n = some n := by
    have hc : checkShape s1.n Y = .ok () := by
      simp only [Scale.fit, Prod.mk.injEq] at hf
      obtain ⟨rfl, hf⟩ := hf
      exact hf
    cases hn : s1.n with
    | none => simp [Scale.transform, hn, bind, Except.bind, throw, throwThe, MonadExceptOf.throw] at ht
    | some m =>
      rw [hn] at hc
      rw [← checkShape_eq_ok hc, hY.len]
  have hZ : Z.Shaped n c := by
    simp only [Scale.transform, h1, checkShape_ok hY.len, Option.isNone_some, Bool.false_eq_true, if_false,
      bind, Except.bind] at ht
    exact op_shaped ht hY
  refine ⟨hZ, h1, hf, fun b => ?_, fun b => onBuffer_ok ht⟩
  simp only [scaleI, hf, onBuffer_ok ht]

variable [IsStrictOrderedRing K]

/-- C38 for `ShiftScaleTransformer`. -/
theorem C38_shiftscale (sqrt : K → K) (s : Sst K) : (sstI sqrt).FitsThenTransforms s := by
  intro Y n c b s' Y' Z hY h
  simp only [sstI, Prod.mk.injEq] at h
  obtain ⟨rfl, h⟩ := h
  have ht := onBuffer_eq_ok h
  cases Y with
  | vec xs => simp [Sst.fitTransform] at ht
  | mat k rows =>
    have hf := sst_fit_ok (sqrt := sqrt) (s := s) (s' := (s.fitTransform sqrt (.mat k rows)).1)
      (k := k) (rows := rows) (Z := Z) (Prod.ext rfl ht)
    have hl : rows.length = n := hY.len
    refine ⟨?_, ?_, ?_, fun b => ?_, fun b => onBuffer_ok hf.transform⟩
    · rw [hf.result]; exact hY.rowMap _
    · rw [← hl]; exact hf.ready.dim
    · simp only [sstI, ht, Except.map]
    · simp only [sstI]
      rw [onBuffer_ok (f := fun Y => (s.fitTransform sqrt Y).2) ht]

/-- No parameter is left over from options that do not ask for it (true of every transformer made by the
constructor, since the setters refuse such parameters). -/
structure Sst.Clean {K : Type} (s : Sst K) : Prop where
  mean : s.centering = false → s.mean = none
  scale : s.scaling = none → s.alpha = none ∧ s.beta = none

omit [Field K] [LinearOrder K] [IsStrictOrderedRing K] in
theorem sst_make_clean {centering byrow verbose : Bool} {scaling : Option Scaling} {name : Option String}
    {s : Sst K} (h : Sst.make centering scaling byrow name verbose = .ok s) : s.Clean := by
  unfold Sst.make at h
  split at h
  · cases h
  · simp only [Except.ok.injEq] at h
    subst h
    exact ⟨fun _ => rfl, fun _ => ⟨rfl, rfl⟩⟩

/-- C38: what was calibrated before does not matter. Two transformers with the same options, whatever
their histories, are equal after calibration with the same data and give the same result. -/
theorem C38_refit_forgets_history (sqrt : K → K) {s1 s2 s1' : Sst K} (h1 : s1.Clean) (h2 : s2.Clean)
    (ho : s1.centering = s2.centering ∧ s1.scaling = s2.scaling ∧ s1.byrow = s2.byrow ∧
      s1.name = s2.name ∧ s1.verbose = s2.verbose) {Y Y' Z : Snap K} {b : Bool}
    (hf : (sstI sqrt).fitTransform s1 b Y = (s1', Y', .ok Z)) :
    (sstI sqrt).fitTransform s2 b Y = (s1', Y', .ok Z) ∧ s1'.Clean := by
  obtain ⟨hc, hs, hb, hn, hv⟩ := ho
  simp only [sstI, Prod.mk.injEq] at hf ⊢
  obtain ⟨hf1, hf2⟩ := hf
  have ht := onBuffer_eq_ok hf2
  cases Y with
  | vec xs => simp [Sst.fitTransform] at ht
  | mat k rows =>
    have hok := sst_fit_ok (sqrt := sqrt) (s := s1) (s' := s1') (Z := Z) (Prod.ext hf1 ht)
    have key : s2.fitTransform sqrt (.mat k rows) = s1.fitTransform sqrt (.mat k rows) := by
      obtain ⟨c1, sc1, b1, n1, v1, d1, m1, a1, be1⟩ := s1
      obtain ⟨c2, sc2, b2, n2, v2, d2, m2, a2, be2⟩ := s2
      simp only at hc hs hb hn hv
      subst hc hs hb hn hv
      cases hcc : c1 with
      | false =>
        subst hcc
        have e1 : m1 = none := h1.mean rfl
        have e2 : m2 = none := h2.mean rfl
        subst e1 e2
        cases sc1 with
        | none =>
          have e3 := h1.scale rfl
          have e4 := h2.scale rfl
          simp only at e3 e4
          simp [Sst.fitTransform, e3.1, e3.2, e4.1, e4.2]
        | some sc =>
          simp only [Sst.fitTransform, Bool.false_eq_true, if_false] at ht ⊢
          cases hl : learnScaling sqrt sc b1 k rows with
          | error e => simp [hl] at ht
          | ok ab => rfl
      | true =>
        subst hcc
        simp only [Sst.fitTransform, if_true] at ht ⊢
        cases hmu : rows.mapM meanOf with
        | error e => simp [hmu, Except.map] at ht
        | ok mu =>
          simp only [hmu, Except.map] at ht ⊢
          cases hop : (Snap.mat k rows).op (fun x y => x - y) (.arr mu) with
          | error e => simp [hop] at ht
          | ok W =>
            simp only [hop] at ht ⊢
            cases sc1 with
            | none =>
              have e3 := h1.scale rfl
              have e4 := h2.scale rfl
              simp only at e3 e4
              simp [e3.1, e3.2, e4.1, e4.2]
            | some sc =>
              cases W with
              | vec xs => simp at ht
              | mat k' rows' =>
                simp only at ht ⊢
                cases hl : learnScaling sqrt sc b1 k' rows' with
                | error e => simp [hl] at ht
                | ok ab => rfl
    refine ⟨⟨by rw [key]; exact hf1, ?_⟩, ?_, ?_⟩
    · rw [onBuffer_ok (f := fun Y => (s1.fitTransform sqrt Y).2) ht] at hf2
      rw [onBuffer_ok (f := fun Y => (s2.fitTransform sqrt Y).2) (Z := Z) (by rw [key]; exact ht)]
      exact hf2
    · intro h0
      rw [hok.centering] at h0
      rw [hok.keepMean h0, h1.mean h0]
    · intro h0
      rw [hok.scaling] at h0
      rw [(hok.keepScale h0).1, (hok.keepScale h0).2]
      exact h1.scale h0

end Leaves

theorem sum_fits_inl {I : TfI K S} {J : TfI K T} {s : S} (h : I.FitsThenTransforms s) :
    (sumI I J).FitsThenTransforms (.inl s) := by
  intro Y n c b s' Y' Z hY hf
  simp only [sumI, Prod.mk.injEq] at hf
  obtain ⟨rfl, hf⟩ := hf
  obtain ⟨h1, h2, h3, h4, h5⟩ := h Y n c b _ Y' Z hY (Prod.ext rfl hf)
  refine ⟨h1, h2, ?_, fun b => ?_, h5⟩
  · simp only [sumI, h3]
  · simp only [sumI, h4 b]

theorem sum_fits_inr {I : TfI K S} {J : TfI K T} {t : T} (h : J.FitsThenTransforms t) :
    (sumI I J).FitsThenTransforms (.inr t) := by
  intro Y n c b s' Y' Z hY hf
  simp only [sumI, Prod.mk.injEq] at hf
  obtain ⟨rfl, hf⟩ := hf
  obtain ⟨h1, h2, h3, h4, h5⟩ := h Y n c b _ Y' Z hY (Prod.ext rfl hf)
  refine ⟨h1, h2, ?_, fun b => ?_, h5⟩
  · simp only [sumI, h3]
  · simp only [sumI, h4 b]

/-- C38 for any built-in transformer for one variable. -/
theorem C38_basic [Field K] [LinearOrder K] [IsStrictOrderedRing K] (sqrt : K → K) (s : Basic K) :
    (basicI sqrt).FitsThenTransforms s := by
  rcases s with s | s | s | s
  · exact sum_fits_inl (C38_shift s)
  · exact sum_fits_inr (sum_fits_inl (C38_scale s))
  · exact sum_fits_inr (sum_fits_inr (sum_fits_inl (C38_shiftscale sqrt s)))
  · exact sum_fits_inr (sum_fits_inr (sum_fits_inr (C38_null s)))

/-! ### Pipelines -/

theorem chainFit_ok {I : TfI K S} {n : Nat} {c : Option Nat} (ts : List S)
    (h : ∀ t ∈ ts, I.FitsThenTransforms t) (b : Bool) (ts' : List S) (Y Y' Z : Snap K)
    (hY : Y.Shaped n c) (hf : chainFit I.fitTransform ts b Y = (ts', Y', .ok Z)) :
    Z.Shaped n c ∧ (∀ t ∈ ts', I.dim t = some n) ∧ ts'.length = ts.length ∧
    (∀ b, chainFit I.fitTransform ts b Y = (ts', yields b Y Z)) ∧
    ∀ b, chain I.transform ts' b Y = yields b Y Z := by
  induction ts generalizing b ts' Y Y' with
  | nil =>
    simp only [chainFit, Prod.mk.injEq, Except.ok.injEq] at hf
    obtain ⟨rfl, rfl, rfl⟩ := hf
    exact ⟨hY, by simp, rfl, fun b => by cases b <;> rfl, fun b => by cases b <;> rfl⟩
  | cons t ts ih =>
    simp only [chainFit] at hf
    cases hft : I.fitTransform t b Y with
    | mk t' r =>
      obtain ⟨Y1', r⟩ := r
      rw [hft] at hf
      cases r with
      | error e => simp at hf
      | ok Y1 =>
        simp only [Prod.mk.injEq] at hf
        obtain ⟨rfl, _, hr⟩ := hf
        obtain ⟨hY1, hd, _, h4, h5⟩ := h t (by simp) Y n c b t' Y1' Y1 hY hft
        obtain ⟨hZ, hds, hlen, h6, h7⟩ := ih (fun t ht => h t (by simp [ht])) true
          (chainFit I.fitTransform ts true Y1).1 Y1 (chainFit I.fitTransform ts true Y1).2.1 hY1
          (Prod.ext rfl (Prod.ext rfl hr))
        refine ⟨hZ, ?_, by simp [hlen], fun b => ?_, fun b => chain_cons (h5 b) (h7 true)⟩
        · intro u hu
          rcases mem_cons.1 hu with rfl | hu
          · exact hd
          · exact hds u hu
        · simp only [chainFit, h4 b, yields]
          rw [h6 true]
          cases b <;> simp [yields]

/-- C38 for pipelines. -/
theorem C38_pipeline {I : TfI K S} {ts : List S} (h : ∀ t ∈ ts, I.FitsThenTransforms t) :
    (pipeI I).FitsThenTransforms ts := by
  intro Y n c b ts' Y' Z hY hf
  simp only [pipeI] at hf
  cases he : ts.isEmpty with
  | true => simp [he] at hf
  | false =>
    simp only [he, Bool.false_eq_true, if_false] at hf
    obtain ⟨hZ, hds, hlen, h6, h7⟩ := chainFit_ok ts h b ts' Y Y' Z hY hf
    have he' : ts'.isEmpty = false := by
      rw [List.isEmpty_eq_false_iff] at he ⊢
      intro h0
      rw [h0] at hlen
      exact he (by simpa using hlen.symm)
    refine ⟨hZ, ?_, ?_, fun b => ?_, fun b => ?_⟩
    · cases ts' with
      | nil => simp at he'
      | cons t ts' => simp [pipeI, firstDim, hds t (by simp)]
    · simp only [pipeI, he, Bool.false_eq_true, if_false, h6 false, yields, Except.map]
    · simp only [pipeI, he, Bool.false_eq_true, if_false, h6 b]
    · simp only [pipeI, he', Bool.false_eq_true, if_false, h7 b]

/-! ### Multi-variable transformers -/

theorem eachPartFit_ok {I : TfI K S} {c : Option Nat} (ts : List S)
    (h : ∀ t ∈ ts, I.FitsThenTransforms t) {ns : List Nat} {Ps : List (Snap K)}
    (hl : ts.length = ns.length) (hP : Forall₂ (fun P n => Snap.Shaped P n c) Ps ns) (b : Bool)
    (ts' : List S) (Ps' Qs : List (Snap K))
    (hf : eachPartFit (fun t Y => I.fitTransform t b Y) ts Ps = (ts', Ps', .ok Qs)) :
    Forall₂ (fun P n => Snap.Shaped P n c) Qs ns ∧ Forall₂ (fun t n => I.dim t = some n) ts' ns ∧
    (∀ b, eachPartFit (fun t Y => I.fitTransform t b Y) ts Ps = (ts', if b then Qs else Ps, .ok Qs)) ∧
    ∀ b, Each3 (fun t P Q => I.transform t b P = yields b P Q) ts' Ps Qs := by
  induction hP generalizing ts ts' Ps' Qs with
  | nil =>
    have : ts = [] := by simpa using hl
    subst this
    simp only [eachPartFit, Prod.mk.injEq, Except.ok.injEq] at hf
    obtain ⟨rfl, rfl, rfl⟩ := hf
    exact ⟨.nil, .nil, fun b => by cases b <;> rfl, fun b => .nil⟩
  | cons p1 p2 ih =>
    rename_i P n Ps ns
    cases ts with
    | nil => simp at hl
    | cons t ts =>
      simp only [eachPartFit] at hf
      cases hft : I.fitTransform t b P with
      | mk t1 r =>
        obtain ⟨P1, r⟩ := r
        rw [hft] at hf
        cases r with
        | error e => simp at hf
        | ok Q =>
          simp only at hf
          cases hrest : eachPartFit (fun t Y => I.fitTransform t b Y) ts Ps with
          | mk ts1 r =>
            obtain ⟨Ps1, r⟩ := r
            rw [hrest] at hf
            cases r with
            | error e => simp at hf
            | ok Qs1 =>
              simp only [Prod.mk.injEq, Except.ok.injEq] at hf
              obtain ⟨rfl, _, rfl⟩ := hf
              obtain ⟨hQ, hd, _, h4, h5⟩ := h t (by simp) P n c b t1 P1 Q p1 hft
              obtain ⟨hQs, hds, h6, h7⟩ := ih ts (fun t ht => h t (by simp [ht])) (by simpa using hl)
                ts1 Ps1 Qs1 hrest
              refine ⟨.cons hQ hQs, .cons hd hds, fun b => ?_, fun b => .cons (h5 b) (h7 b)⟩
              simp only [eachPartFit, h4 b, yields]
              rw [h6 b]
              cases b <;> simp

/-- C38 for multi-variable transformers. -/
theorem C38_multi {I : TfI K S} {ts : List S} (hne : ts ≠ [])
    (h : ∀ t ∈ ts, I.FitsThenTransforms t) (h' : ∀ t ∈ ts, ∀ n, I.FitsThenTransforms (I.forceDim t n)) :
    (multiI I).FitsThenTransforms ts := by
  -- once the sizes are known
  have core : ∀ us : List S, us ≠ [] → (∀ t ∈ us, I.FitsThenTransforms t) →
      ∀ (Y : Snap K) (n : Nat) (c : Option Nat) (b : Bool) (ts' : List S) (Y' Z : Snap K) , Y.Shaped n c →
      (match multiSplit I us Y with
        | .error e => (us, Y, .error e)
        | .ok parts =>
          let r := eachPartFit (fun t Y => I.fitTransform t b Y) us parts
          (r.1, multiResult b Y r.2)) = (ts', Y', .ok Z) →
      Z.Shaped n c ∧ multiDim I ts' = some n ∧
      (∀ b, (match multiSplit I us Y with
        | .error e => (us, Y, .error e)
        | .ok parts =>
          let r := eachPartFit (fun t Y => I.fitTransform t b Y) us parts
          (r.1, multiResult b Y r.2)) = (ts', yields b Y Z)) ∧
      ∀ b, multiTransform I ts' b Y = yields b Y Z := by
    intro us hune hu Y n c b ts' Y' Z hY hf
    cases hd0 : us.mapM I.dim with
    | none =>
      have : multiSplit I us Y = .error .attribute := by
        simp [multiSplit, multiCheck, multiDim, hd0, bind, Except.bind]
      simp [this] at hf
    | some ns =>
      have hd : Forall₂ (fun t n => I.dim t = some n) us ns := by
        clear hf hune hu
        induction us generalizing ns with
        | nil => simp at hd0; subst hd0; exact .nil
        | cons t us ih =>
          simp only [mapM_cons, Option.bind_eq_bind, Option.bind_eq_some_iff, Option.pure_def,
            Option.some.injEq] at hd0
          obtain ⟨m, hm, ms, hms, rfl⟩ := hd0
          exact .cons hm (ih ms hms)
      by_cases hlen : Y.len = ns.sum
      · have hn : ns ≠ [] := forall2_ne_nil hd hune
        have hsum : ns.sum = n := by rw [← hlen, hY.len]
        have hP := joined_split (ns := ns) (Y := Y) (c := c) (by rw [hsum]; exact hY) hn
        rw [multiSplit_ok hd hlen] at hf ⊢
        simp only [Prod.mk.injEq] at hf
        obtain ⟨hts, hres⟩ := hf
        obtain ⟨Qs, hq⟩ : ∃ Qs, (eachPartFit (fun t Y => I.fitTransform t b Y) us
            (splitSizes ns 0 Y)).2.2 = .ok Qs := by
          cases hr : (eachPartFit (fun t Y => I.fitTransform t b Y) us (splitSizes ns 0 Y)).2.2 with
          | error e => simp [multiResult, hr] at hres
          | ok Qs => exact ⟨Qs, rfl⟩
        obtain ⟨hQs, hds, h6, h7⟩ := eachPartFit_ok us hu (by simpa using hd.length_eq) hP.parts b ts'
          _ Qs (Prod.ext hts (Prod.ext rfl hq))
        obtain ⟨Z', hQ⟩ := joined_of_parts hQs hn
        have hall : ∀ b, (eachPartFit (fun t Y => I.fitTransform t b Y) us (splitSizes ns 0 Y)).1 = ts' ∧
            multiResult b Y (eachPartFit (fun t Y => I.fitTransform t b Y) us (splitSizes ns 0 Y)).2 =
              yields b Y Z' := fun b => by
          rw [h6 b]
          exact ⟨rfl, multiResult_ok hP hQ⟩
        have hZ : Z' = Z := by
          rw [(hall b).2] at hres
          have := congrArg Prod.snd hres
          simpa [yields] using this
        subst hZ
        refine ⟨hsum ▸ hQ.whole, hsum ▸ (multiDim_eq hds).1, fun b => Prod.ext (hall b).1 (hall b).2,
          fun b => multiTransform_eq hds hP hQ (h7 b)⟩
      · simp [multiSplit_bad hd hlen] at hf
  intro Y n c b ts' Y' Z hY hf
  suffices hs : Z.Shaped n c ∧ multiDim I ts' = some n ∧
      (∀ b, multiFitTransform I ts b Y = (ts', yields b Y Z)) ∧
      ∀ b, multiTransform I ts' b Y = yields b Y Z by
    obtain ⟨h1, h2, h3, h4⟩ := hs
    refine ⟨h1, h2, ?_, h3, h4⟩
    simp only [multiI, h3 false, yields, Except.map]
  simp only [multiI] at hf
  unfold multiFitTransform at hf ⊢
  cases hdim : multiDim I ts with
  | some m =>
    simp only [hdim] at hf ⊢
    exact core ts hne h Y n c b ts' Y' Z hY hf
  | none =>
    simp only [hdim] at hf ⊢
    by_cases hr : Y.len % ts.length = 0
    · simp only [hr, if_true] at hf ⊢
      refine core _ (by simpa using hne) ?_ Y n c b ts' Y' Z hY hf
      intro t ht
      obtain ⟨u, hu, rfl⟩ := mem_map.1 ht
      exact h' u hu _
    · simp [hr] at hf

/-! ### Examples -/

/-- Integer square root, enough for the examples. -/
def exSqrt (x : ℚ) : ℚ := (Nat.sqrt x.num.toNat : ℚ)

/-- Two rows, three snapshots. -/
def exQ : Snap ℚ := .mat 3 [[1, 2, 6], [0, 4, 5]]

/-- A centering and min-max scaling by row. -/
def exSst : Sst ℚ := ⟨true, some .minmax, true, none, false, none, none, none, none⟩

-- Non-vacuity of C35, C37, C38 for `ShiftScaleTransformer`.
example : ((sstI exSqrt).fitTransform exSst false exQ).2.2 =
    .ok (.mat 3 [[0, 1/5, 1], [0, 4/5, 1]]) := by decide +kernel

-- The contracts apply to a pipeline of a shift and this transformer, and to a multi-variable
-- transformer made of both.
example : ((pipeI (basicI exSqrt)).fitTransform [.inl ⟨[1, 1], none⟩, .inr (.inr (.inl exSst))] false
    exQ).2.2 = .ok (.mat 3 [[0, 1/5, 1], [0, 4/5, 1]]) := by decide +kernel

example : ((multiI (basicI exSqrt)).fitTransform
    [.inl ⟨[1], none⟩, .inr (.inr (.inr ⟨some 1, none⟩))] true exQ).2 =
    yields true exQ (.mat 3 [[0, 1, 5], [0, 4, 5]]) := by decide +kernel

-- `C35_locs_unscaled_byrow_raises` has instances.
example : ((sstI exSqrt).fitTransform ⟨true, none, true, none, false, none, none, none, none⟩ false
    exQ).2.2 = .ok (.mat 3 [[-2, -1, 3], [-3, 1, 2]]) := by decide +kernel

example : locate 2 (.slice none none (some (-1))) = .ok [1, 0] := by decide +kernel

end Opinf
